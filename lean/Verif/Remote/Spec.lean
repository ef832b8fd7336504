/-
Specification vocabulary for the properties of the dispatcher and the connector.
-/
import Verif.Remote.Handle
import Verif.Wire.Spec

namespace Verif.Remote

open Wire (Packet Kind)

/-- A string that can be encoded: no lone surrogates. -/
def Text (s : Str) : Prop := ∀ c ∈ s, c ≤ 0x10FFFF ∧ ¬ (0xD800 ≤ c ∧ c ≤ 0xDFFF)

/-- A length that every object on a real machine has by a wide margin (a petabyte). -/
def Modest (n : Nat) : Prop := n < 2 ^ 50

/-- Text of a realistic length. -/
def Plain (s : Str) : Prop := Text s ∧ Modest s.length

/-- No NUL character. -/
def NoNul (s : Str) : Prop := 0 ∉ s

/-- A user or group id: 32 bits, the largest value is reserved. -/
def IdOk (n : Nat) : Prop := n < 4294967295

/-- A time stamp that can be sent: not before 1970. -/
def TimeOk (t : Int) : Prop := 0 ≤ t ∧ t < 2 ^ 64

/-- A file system object whose attributes can be reported. -/
structure Node.Sane (n : Node) : Prop where
  perm : n.perm < 4096
  uid : IdOk n.uid
  gid : IdOk n.gid
  mtime : TimeOk n.mtime
  ctime : TimeOk n.ctime
  content : ∀ c, n.kind = .file c → Modest c.length
  target : ∀ t, n.kind = .link t → Modest t.length

/-- A host whose names and time stamps can be reported: accounts and environment are text, ids fit 32 bits, no time stamp
lies before 1970. -/
structure World.Sane (w : World) : Prop where
  node : ∀ l n, w.fs l = some n → n.Sane
  users : ∀ e ∈ w.users, Plain e.name ∧ Plain e.gecos ∧ Plain e.home ∧ Plain e.shell ∧ IdOk e.uid ∧ IdOk e.gid ∧ NoNul e.name
  groups : ∀ e ∈ w.groups, Plain e.name ∧ (∀ m ∈ e.members, Plain m) ∧ Modest e.members.length ∧ IdOk e.gid ∧ NoNul e.name
  ngroups : Modest w.groups.length
  shadow : ∀ e ∈ w.shadow, Plain e.2
  env : ∀ e ∈ w.env, Plain e.2
  uid : IdOk w.uid
  gid : IdOk w.gid
  clock : TimeOk w.clock

/-- An operating system error that can be reported. -/
structure OSErr.Sane (e : OSErr) : Prop where
  errno : -9223372036854775808 ≤ e.errno ∧ e.errno ≤ 9223372036854775807
  strerror : Plain e.strerror
  msg : Plain e.msg

/-- A system whose errors, exit codes and checksums can be reported, and whose programs keep the host sane. -/
structure Sys.Sane (sys : Sys) : Prop where
  fault : ∀ w c e, sys.fault w c = some e → e.Sane
  failed : ∀ p w e w', sys.exec p w = (.failed e, w') → e.Sane
  done : ∀ p w o e c w', sys.exec p w = (.done o e c, w') →
    Modest o.length ∧ Modest e.length ∧ -2147483648 ≤ c ∧ c ≤ 2147483647
  world : ∀ p w, w.Sane → (sys.exec p w).2.Sane
  sha512 : ∀ c, (sys.sha512 c).length = 64

/-- Every string and list in the packet is of realistic size. -/
def ModestVal : (t : Wire.Ty) → Wire.Val t → Prop
  | .bytes, v => Modest v.length
  | .str, v => Modest v.length
  | .opt t, v => ∀ x ∈ v, ModestVal t x
  | .list t, v => Modest v.length ∧ ∀ x ∈ v, ModestVal t x
  | _, _ => True

/-- A request as a client can send it. -/
def Packet.Proper (p : Packet) : Prop :=
  p.kind.isRequest = true ∧ p.Fits ∧ Wire.AllFields ModestVal (Wire.schema p.kind) p.vals

/-- The kinds of packets that a request may be answered with, apart from error reports. -/
def expected : Kind → List Kind
  | .checkAlive => [.ack]
  | .processRun => [.processCompleted, .processError]
  | .stat => [.statResult]
  | .resolveUser | .resolveGroup => [.resolveResult]
  | .upload => [.ok]
  | .download => [.downloadResult]
  | .queryUser => [.userEntry]
  | .queryGroup => [.groupEntry]
  | .getenv => [.environVar]
  | _ => []

/-- `q` is a proper answer to request `p`: of the expected kind, or an error report. -/
def Answers (p q : Packet) : Prop := q.kind ∈ expected p.kind ∨ q.kind = .osError ∨ q.kind = .invalidField

/-- The answers `qs` fit the requests `ps` one by one, in order. -/
def AllAnswered : List Packet → List Packet → Prop
  | [], [] => True
  | p :: ps, q :: qs => Answers p q ∧ AllAnswered ps qs
  | _, _ => False

/-- The name `s` denotes the account `e`: by name, or by number if no account has that name; the first entry counts. -/
def DenotesUser (w : World) (s : Str) (e : PwEntry) : Prop :=
  w.users.find? (·.name == s) = some e ∨
  (w.users.find? (·.name == s) = none ∧ ∃ n : Nat, Py.parseInt 10 s = some (n : Int) ∧ w.users.find? (·.uid == n) = some e)

/-- The same for groups. -/
def DenotesGroup (w : World) (s : Str) (e : GrEntry) : Prop :=
  w.groups.find? (·.name == s) = some e ∨
  (w.groups.find? (·.name == s) = none ∧ ∃ n : Nat, Py.parseInt 10 s = some (n : Int) ∧ w.groups.find? (·.gid == n) = some e)

/-- The requests that avoid what makes the dispatcher's own calls raise something other than an OSError: a NUL character
in a path, an account name or the command, an empty command, a mode beyond the range of a C int. -/
def Tame : Packet → Prop
  | .processRun command _ _ _ _ _ _ => command ≠ [] ∧ ∀ a ∈ command, NoNul a
  | .stat path _ _ => NoNul path
  | .resolveUser user => ∀ u ∈ user, NoNul u
  | .resolveGroup group => ∀ g ∈ group, NoNul g
  | .upload file _ mode _ _ =>
    NoNul file ∧ ∀ m ∈ mode, ∀ i, Py.parseInt 8 m = some i → -2147483648 ≤ i ∧ i ≤ 2147483647
  | .download file => NoNul file
  | .queryUser user _ => NoNul user
  | .queryGroup group => NoNul group
  | _ => True

/-- The command's output is captured, i.e. not written into the protocol stream. -/
def Captured : Packet → Prop
  | .processRun _ _ capture _ _ _ _ => capture = true
  | _ => True

end Verif.Remote
