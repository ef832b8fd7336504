/-
What a user may expect of a run of the program.
-/
import Verif.Run.Program
import Verif.Run.MainProps
import Verif.Ops.MirrorRepeatProps
import Verif.Ops.CallsSpec

namespace Verif.Program

open Script Remote Ops

/-- The identity of the connection: the user and the group of the dispatcher, which also own what is created, unless something else
is asked for. -/
def Identity (base : Settings) (w : World) (b : Settings) : Prop :=
  ∃ u g, DenotesUser w (Py.natStr 10 w.uid) u ∧ DenotesGroup w (Py.natStr 10 w.gid) g
    ∧ b = { base with asUser := some u.name, asGroup := some g.name, owner := some u.name, group := some g.name }

/-- The state in which a script begins: its defaults are those of the connection. -/
def start (b : Settings) : St := { stack := [b, {}] }

/-- What the calls of a script ask for. -/
def asked (t : Target) (calls : List Ops.Call) : List Task := calls.flatMap (Ops.Call.tasks t.sys.sha512)

/-- A host that is as usual, and the calls of the script for it. `b` are the settings of the connection. -/
structure Site (opts : Env) (tools : Tools) (t : Target) (calls : List Ops.Call) (b : Settings) (w : World) : Prop where
  ordinary : Ordinary t.sys tools w
  identity : Identity t.base w b
  script : t.script = calls.map (Ops.Call.op t.sys.sha512)
  fits : ∀ c ∈ calls, c.Fits
  tasks : Tasks t.sys w (asked t calls)
  modes : PlainModes { opts with base := b } (start b)

/-- In addition, what is asked for can be recognised when it is there: the default modes have no leading zeros, no uid or gid belongs
to two accounts, and neither setuid nor setgid is involved. -/
structure Steady (opts : Env) (ts : List Task) (b : Settings) (w : World) : Prop where
  modes : CanonicalModes { opts with base := b } (start b)
  aliases : NoAliases w
  bits : NoSetIdsAsked { opts with base := b } (start b) w ts

/-- Everything that the script asks for is there, and what it asks to be removed is not. -/
def Deployed (opts : Env) (t : Target) (ts : List Task) (b : Settings) (w w' : World) : Prop :=
  ∀ x ∈ ts, x.wish.Granted t.sys { opts with base := b } (start b) w w' x.names ∧ x.Reached w'

/-- No other content has the checksum of a file that the script stores. -/
def NoCollisions (t : Target) (ts : List Task) : Prop :=
  ∀ x ∈ ts, ∀ bytes mode owner group other, x.wish = .file (.ok bytes) mode owner group → t.sys.sha512 other = t.sys.sha512 bytes → other = bytes

/-- The connection works as long as it is needed. -/
structure Working (luck : Luck) : Prop where
  popen : luck.opening.popen = none
  alive : luck.opening.alive = .ok .ack
  stays : luck.opening.died = false
  unbroken : ∀ k, luck.lost k = none
  lives : luck.dies = false

end Verif.Program
