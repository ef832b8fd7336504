/-
C98: the dispatcher that is executed on a host is the one that belongs to this program.
-/
import Verif.Client.BootstrapLemmas
import Verif.Inventory.UrlProps

namespace Verif.Client.Bootstrap

open Shell

/-- C98, over ssh. Whatever the source of the dispatcher is, the shell of the host executes `python3` with exactly this program (except
for newlines at its end), and nothing else: no character of it, or of its compressed form, is taken for something else on the way. The
dispatcher is in debug mode if and only if this was asked for. -/
theorem C98_ssh (h : Host) (compress : Bytes → Bytes) (decompress : Bytes → Option Bytes) (he : Equipped h decompress) (source : Bytes) (debug : Bool)
    (hz : decompress (compress source) = some source) (hn : 0 ∉ source) :
    ∃ short argv sysArgv, WithoutLastNewlines source short ∧ executed h (remoteCommand compress source debug) = some argv
      ∧ argv = [b!"env", b!"python3", b!"-c", short] ++ (if debug then [b!"--debug"] else [])
      ∧ pythonProcess argv = some (.text short, sysArgv) ∧ debugWanted sysArgv = debug := by
  have hb := encode64_chars (compress source)
  have h1 := he.echo (encode64 (compress source)) [] (fun hm => base64_ne (hb _ hm) (x := 92) (by decide) rfl) (fun hh => by
    cases hx : encode64 (compress source) with
    | nil => rw [hx] at hh; cases hh
    | cons c r =>
      rw [hx] at hh
      cases hh
      exact base64_ne (hb 45 (by rw [hx]; simp)) (x := 45) (by decide) rfl)
  have h2 := he.base64 _ _ (decode64_line (compress source))
  have h3 := he.python _ _ hz
  have hp : piped h [[b!"echo", encode64 (compress source)], [b!"base64", b!"-d"],
      [b!"python", b!"-c", b!"import zlib,sys;sys.stdout.buffer.write(zlib.decompress(sys.stdin.buffer.read()))"]] [] = source := by
    simp only [piped, h1, Option.getD_some, h2, h3]
  refine ⟨substituted source, _, b!"-c" :: (if debug then [b!"--debug"] else []), substituted_eq hn, executed_command h compress source debug, ?_, ?_, ?_⟩
  · rw [hp]
  · rw [hp]
    cases debug <;> rfl
  · cases debug <;> rfl

/-- C98, the whole command: ssh is told to connect to the declared host and gets this command line as its last argument, after all
options. -/
theorem C98_command (compress : Bytes → Bytes) (source : Bytes) (debug : Bool) (dest : Str) (host : Inventory.SshHost) :
    sshCommand compress source debug (some (p!"ssh://" ++ dest)) host
      = .ok ([p!"ssh"] ++ host.opts ++ [p!"ssh://" ++ dest, remoteCommand compress source debug]) :=
  (Inventory.C66_destination (remoteCommand compress source debug) dest host).1

/-- C98, other programs: on the way no program of the host other than `echo`, `base64` and `python` is run. -/
theorem C98_only_tools (h h' : Host) (compress : Bytes → Bytes) (source : Bytes) (debug : Bool)
    (hs : ∀ argv input, argv.head? = some b!"echo" ∨ argv.head? = some b!"base64" ∨ argv.head? = some b!"python" → h.run argv input = h'.run argv input) :
    executed h (remoteCommand compress source debug) = executed h' (remoteCommand compress source debug) := by
  rw [executed_command, executed_command]
  simp only [piped, hs [b!"echo", _] _ (.inl rfl), hs [b!"base64", _] _ (.inr (.inl rfl)), hs [b!"python", _, _] _ (.inr (.inr rfl))]

/-- C98, on this machine: `python3` executes the file of the dispatcher, in debug mode if and only if this was asked for. -/
theorem C98_local (path : Str) (bytes : Bytes) (debug : Bool) (hp : Py.encodeUtf8 (p!"/" ++ path) = some bytes) :
    ∃ argv sysArgv, (localCommand (p!"/" ++ path) debug).map Py.encodeUtf8 = argv.map some
      ∧ pythonProcess argv = some (.file bytes, sysArgv) ∧ debugWanted sysArgv = debug := by
  refine ⟨[b!"python3", bytes] ++ (if debug then [b!"--debug"] else []), bytes :: (if debug then [b!"--debug"] else []), ?_, ?_, ?_⟩
  · simp only [localCommand]
    have hp' : Py.encodeUtf8 (47 :: path) = some bytes := hp
    cases debug
    · simp [hp']
      rfl
    · simp [hp']
      exact ⟨rfl, rfl⟩
  · have hh : bytes.head? = some 47 := by
      rw [show p!"/" ++ path = 47 :: path from rfl] at hp
      simp only [Py.encodeUtf8, encode_ascii_char (show 47 < 128 by decide)] at hp
      cases hx : Py.encodeUtf8 path with
      | none => rw [hx] at hp; simp at hp
      | some r =>
        rw [hx] at hp
        simp at hp
        rw [← hp]
        rfl
    cases bytes with
    | nil => cases hh
    | cons c r =>
      cases hh
      cases debug <;> rfl
  · cases debug <;> rfl

/-! ### A case that meets the hypotheses -/

namespace Example

/-- A host with these tools. Nothing is compressed. -/
def host : Host where
  run argv input :=
    match argv with
    | [name, a] => if name = b!"echo" then some (a ++ [10]) else if name = b!"base64" ∧ a = b!"-d" then some ((decode64 input).getD []) else none
    | [name, a, _] => if name = b!"python" ∧ a = b!"-c" then some input else none
    | _ => none

theorem equipped : Equipped host some where
  echo := fun _ _ _ _ => rfl
  base64 := by
    intro input out h
    show some ((decode64 input).getD []) = _
    rw [h]
    rfl
  python := by
    intro input out h
    cases h
    rfl

/-- A program with quotes, backslashes, dollar signs, and characters beyond ASCII. -/
def source : Bytes := b!"print('$(x) `y` \\ \"' % \"" ++ [0xc3, 0xa4, 0xff] ++ b!"\")\n\n"

example : executed host (remoteCommand id source true) = some [b!"env", b!"python3", b!"-c", source.dropLast.dropLast, b!"--debug"] := by decide +kernel

example : ∃ short argv sysArgv, WithoutLastNewlines source short ∧ executed host (remoteCommand id source false) = some argv
    ∧ argv = [b!"env", b!"python3", b!"-c", short] ∧ pythonProcess argv = some (.text short, sysArgv) ∧ debugWanted sysArgv = false :=
  C98_ssh host id some equipped source false rfl (by decide)

/-- The same host without a program called `python`; there is a `python3`. -/
def modern : Host where
  run argv input :=
    if argv.head? = some b!"python" then none
    else if argv.head? = some b!"python3" then host.run (b!"python" :: argv.tail) input
    else host.run argv input

end Example

/-- Python 3 is there as `python3`, besides the other tools. -/
structure EquippedWith3 (h : Host) (decompress : Bytes → Option Bytes) : Prop where
  echo : ∀ text input, 92 ∉ text → text.head? ≠ some 45 → h.run [b!"echo", text] input = some (text ++ [10])
  base64 : ∀ input out, decode64 input = some out → h.run [b!"base64", b!"-d"] input = some out
  python3 : ∀ input out, decompress input = some out →
    h.run [b!"python3", b!"-c", b!"import zlib,sys;sys.stdout.buffer.write(zlib.decompress(sys.stdin.buffer.read()))"] input = some out

/-- The full statement of C98: it suffices that a host has `python3`, which is what the dispatcher is executed with. -/
def C98_Statement : Prop :=
  ∀ (h : Host) (compress : Bytes → Bytes) (decompress : Bytes → Option Bytes), EquippedWith3 h decompress → ∀ (source : Bytes) (debug : Bool),
    decompress (compress source) = some source → 0 ∉ source →
    ∃ short, WithoutLastNewlines source short
      ∧ executed h (remoteCommand compress source debug) = some ([b!"env", b!"python3", b!"-c", short] ++ (if debug then [b!"--debug"] else []))

/-- The full statement of C98 is false of the code: the dispatcher is decompressed by `python`. On a host on which Python 3 is only
called `python3`, as on many systems, an empty program is executed in the place of the dispatcher. -/
theorem C98_python3_refuted : ¬ C98_Statement := by
  intro hs
  obtain ⟨short, ⟨⟨n, hw⟩, _⟩, he⟩ := hs Example.modern id some
    { echo := fun _ _ _ _ => rfl
      base64 := Example.equipped.base64
      python3 := by
        intro input out h
        cases h
        rfl } b!"main()" false rfl (by decide)
  have hx : executed Example.modern (remoteCommand id b!"main()" false) = some [b!"env", b!"python3", b!"-c", []] := by decide +kernel
  rw [hx] at he
  simp only [Bool.false_eq_true, if_false, List.append_nil, Option.some.injEq, List.cons.injEq, true_and, and_true] at he
  subst he
  have := congrArg List.head? hw
  cases n with
  | zero => cases this
  | succ n => simp [List.replicate_succ] at this

end Verif.Client.Bootstrap
