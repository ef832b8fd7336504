/-
Property theorems about requests and commands that run at the same time (C93).
-/
import Verif.Client.PipesLemmas
import Verif.Client.Connector
import Verif.Client.TunnelProps
import Verif.Remote.Example

namespace Verif.Pipes

open Wire (Packet encoding)
open Remote
open Client (Prog direct Connector.run)

/-- The full statement of C93: on every host, for every program and every capacity of the pipes, no schedule goes on forever,
none gets stuck before the program has ended, and when it has ended its result and the state of the host are those of
executing the requests one after the other. -/
def C93_Statement : Prop :=
  ∀ (α : Type) (sys : Sys) (life : Life) (w : World) (prog : Prog α) (cap : Nat),
    (living sys life).Sane → w.Sane → 0 < cap → (prog.All fun p => Packet.Proper p ∧ Tame p ∧ p ≠ .exit) →
    (∃ N, ∀ n s, Steps (living sys life) life cap n (initial prog w) s → n ≤ N)
    ∧ ∀ n s, Steps (living sys life) life cap n (initial prog w) s →
      (s.Finished ∨ ∃ t, Step (living sys life) life cap s t)
      ∧ ∀ a, s.client = .ready (.ret a) → (a, s.world) = prog.run (direct (living sys life)) w ∧ s.Quiet

/-- C93. This holds for every program whose commands leave the connection alone: they read their standard input only if the
program gives them one, print without capturing only to the standard error, come to an end, and leave no process behind that
uses what it shares with them. -/
theorem C93_every_schedule_partial {α : Type} (sys : Sys) (life : Life) (w : World) (prog : Prog α) (cap : Nat)
    (hs : (living sys life).Sane) (hw : w.Sane) (hcap : 0 < cap)
    (hprog : prog.All fun p => Packet.Proper p ∧ Tame p ∧ Undisturbed life p ∧ p ≠ .exit) :
    (∃ N, ∀ n s, Steps (living sys life) life cap n (initial prog w) s → n ≤ N)
    ∧ ∀ n s, Steps (living sys life) life cap n (initial prog w) s →
      (s.Finished ∨ ∃ t, Step (living sys life) life cap s t)
      ∧ ∀ a, s.client = .ready (.ret a) → (a, s.world) = prog.run (direct (living sys life)) w ∧ s.Quiet := by
  have h0 := inv_initial (sys := sys) (life := life) hw hprog
  refine ⟨⟨cost sys life prog w, fun n s h => ?_⟩, fun n s h => ?_⟩
  · obtain ⟨k, h1, _⟩ := inv_steps hs h0 h
    omega
  · obtain ⟨k, _, h2⟩ := inv_steps hs h0 h
    refine ⟨inv_progress hs hcap h2, fun a ha => ?_⟩
    obtain ⟨m, hph, _, _, _⟩ := h2
    cases hph with
    | between _ prog' a1 a2 a3 a4 =>
      rw [ha] at a1
      cases a1
      exact ⟨a4, a2⟩
    | asking _ left p k _ a1 => rw [ha] at a1; cases a1
    | working _ j p q k r _ a1 => rw [ha] at a1; cases a1
    | answered _ left p q k _ a1 => rw [ha] at a1; cases a1

/-- C93. A command that is given no input and comes to read its standard input is never answered, in no schedule: the
command, the dispatcher and the client wait for each other. -/
theorem C93_unfed_hangs {α : Type} (sys : Sys) (life : Life) (w w' : World) (p : Packet) (k : Except Exn Packet → Prog α)
    (cap n : Nat) (s : State α) (proc : Proc) (c : Cmd) (hp : p.Sendable)
    (hl : launched sys life p w = some (proc, c, w')) (hin : proc.stdin = none) (hc : c.Asks proc.capture)
    (h : Steps sys life cap n (initial (.req p k) w) s) : s.Waiting p k :=
  waits_steps asking_hangs hp hl ⟨by simp [Job.begin, hin], hc, nofun⟩ h

/-- C93. A command whose output is captured and that leaves a process behind which keeps this output open is never answered,
although the command itself ends: `subprocess.run` waits for the end of the output. -/
theorem C93_daemon_hangs {α : Type} (sys : Sys) (life : Life) (w w' : World) (p : Packet) (k : Except Exn Packet → Prog α)
    (cap n : Nat) (s : State α) (proc : Proc) (c : Cmd) (hp : p.Sendable)
    (hl : launched sys life p w = some (proc, c, w')) (hout : proc.capture = true) (hc : c.Daemon proc.stdin.isSome)
    (h : Steps sys life cap n (initial (.req p k) w) s) : s.Waiting p k :=
  waits_steps daemon_hangs hp hl ⟨hout, nofun, .inl hc⟩ h

/-! ### A host -/

/-- `head` copies the first byte of its input, `service` starts a proper daemon, `ask` asks a question, `daemon` starts a
process that keeps its output, `reader` leaves a process behind that reads one byte. -/
def programs : Life := fun p w =>
  if p.argv = [p!"head"] then .runs (.read fun x => .print false x.toList (.exit 0)) w
  else if p.argv = [p!"service"] then .runs (.fork false false .stay (.print false [111, 107] (.exit 0))) w
  else if p.argv = [p!"ask"] then .runs (.print false [63] (.read fun x => .exit (if x.isSome then 0 else 1))) w
  else if p.argv = [p!"daemon"] then .runs (.fork true true .stay (.exit 0)) w
  else if p.argv = [p!"reader"] then .runs (.fork true false (.read fun _ => .exit 0) (.exit 0)) w
  else .failed (osErr ENOENT p!"missing")

theorem programs_sane : (living Example.sys programs).Sane where
  fault := by intro w c e h; cases h
  failed := by
    intro p w e w' h
    simp only [living, programs] at h
    split at h
    · next hh =>
      repeat' split at hh
      all_goals cases hh
      cases h
      exact ⟨by decide, Example.plain_lit (by decide) (by decide), Example.plain_lit (by decide) (by decide)⟩
    · cases h
  done := by
    intro p w o e c w' h
    simp only [living, programs] at h
    split at h
    · cases h
    · next hh =>
      repeat' split at hh
      all_goals cases hh
      all_goals cases h
      · cases p.stdin.getD [] <;> simp [Cmd.outcome, Modest]
      · simp [Cmd.outcome, Modest]
      · cases p.stdin.getD [] <;> simp [Cmd.outcome, Modest]
      · simp [Cmd.outcome, Modest]
      · simp [Cmd.outcome, Modest]
  world := by
    intro p w hw
    simp only [living, programs]
    repeat' split
    all_goals first
      | exact hw
      | (next hh =>
          repeat' split at hh
          all_goals first
            | (cases hh; done)
            | (cases hh; exact hw))
  sha512 := by intro c; simp [living, Example.sys]

/-- A request that runs a command without further arguments. -/
def call (name : Str) (input : Option Bytes := none) (capture : Bool := true) : Packet :=
  .processRun [name] input capture none none none none

/-- A program that meets the hypotheses of `C93_every_schedule_partial`: it feeds a command that reads, and starts a daemon;
the second request depends on the answer to the first one. -/
def feeding : Prog (Option Packet) :=
  .req (call p!"head" (some [104, 105])) fun r =>
    match r with
    | .ok (.processCompleted (some [104]) _ _) => .req (call p!"service") fun r => .ret r.toOption
    | _ => .ret none

example : feeding.All fun p => Packet.Proper p ∧ Tame p ∧ Undisturbed programs p ∧ p ≠ .exit := by
  have hhead : Undisturbed programs (call p!"head" (some [104, 105])) := by
    intro proc w w' c h1 h2 h3 h4
    simp only [programs, h1, if_true] at h4
    cases h4
    exact ⟨rfl, fun x => ⟨fun _ => rfl, trivial⟩⟩
  have hserv : Undisturbed programs (call p!"service") := by
    intro proc w w' c h1 h2 h3 h4
    rw [programs, h1, if_neg (by decide), if_pos rfl] at h4
    cases h4
    exact ⟨nofun, fun _ => rfl, trivial⟩
  refine .req _ _ ?_ fun r => ?_
  · have : Packet.Proper (call p!"head" (some [104, 105])) ∧ Tame (call p!"head" (some [104, 105]))
        ∧ Captured (call p!"head" (some [104, 105])) ∧ call p!"head" (some [104, 105]) ≠ .exit := by
      unfold call; concrete_request
    exact ⟨this.1, this.2.1, hhead, this.2.2.2⟩
  · split
    · have : Packet.Proper (call p!"service") ∧ Tame (call p!"service") ∧ Captured (call p!"service") ∧ call p!"service" ≠ .exit := by
        unfold call; concrete_request
      exact .req _ _ ⟨this.1, this.2.1, hserv, this.2.2.2⟩ fun _ => .ret _
    · exact .ret _
example : (feeding.run (direct (living Example.sys programs)) Example.world).1 = some (.processCompleted (some [111, 107]) (some []) 0) := rfl

theorem call_fair (name : Str) (h : Packet.Proper (call name) ∧ Tame (call name) ∧ Captured (call name) ∧ call name ≠ .exit) :
    Packet.Proper (call name) ∧ Tame (call name) ∧ call name ≠ .exit := ⟨h.1, h.2.1, h.2.2.2⟩

/-- If a program never gets beyond its first request, the full statement of C93 is false. -/
theorem hang_refutes (name : Str) (hp : Packet.Proper (call name) ∧ Tame (call name) ∧ call name ≠ .exit)
    (hw : ∀ n (s : State Unit), Steps (living Example.sys programs) programs 65536 n
      (initial (.req (call name) fun _ => .ret ()) Example.world) s → s.Waiting (call name) fun _ => .ret ()) : ¬ C93_Statement := by
  intro h
  obtain ⟨⟨N, hN⟩, hprog⟩ := h Unit Example.sys programs Example.world (.req (call name) fun _ => .ret ()) 65536 programs_sane
    Example.world_sane (by decide) (.req _ _ hp fun _ => .ret _)
  have forever : ∀ n, ∃ s, Steps (living Example.sys programs) programs 65536 n
      (initial (.req (call name) fun _ => .ret ()) Example.world) s := by
    intro n
    induction n with
    | zero => exact ⟨_, .refl _⟩
    | succ n ih =>
      obtain ⟨s, hs⟩ := ih
      rcases (hprog n s hs).1 with ⟨a, ha⟩ | ⟨t, ht⟩
      · rcases hw n s hs with h1 | ⟨left, h1⟩ <;> rw [ha] at h1 <;> cases h1
      · exact ⟨t, .step _ _ _ _ hs ht⟩
  obtain ⟨s, hs⟩ := forever (N + 1)
  have := hN _ _ hs
  omega

/-- The full statement of C93 is false of the code: a command that is given no input shares the standard input of the
dispatcher, and waits there for the next request. -/
theorem C93_unfed_refuted : ¬ C93_Statement :=
  have hp : Packet.Proper (call p!"ask") ∧ Tame (call p!"ask") ∧ Captured (call p!"ask") ∧ call p!"ask" ≠ .exit := by
    unfold call; concrete_request
  hang_refutes p!"ask" (call_fair _ hp) fun n s h =>
    C93_unfed_hangs _ programs Example.world _ _ _ _ n s _ _ hp.1.sendable rfl rfl ⟨fun _ => rfl, trivial⟩ h

/-- The full statement of C93 is false for commands that leave a process behind with their output, too. -/
theorem C93_daemon_refuted : ¬ C93_Statement :=
  have hp : Packet.Proper (call p!"daemon") ∧ Tame (call p!"daemon") ∧ Captured (call p!"daemon") ∧ call p!"daemon" ≠ .exit := by
    unfold call; concrete_request
  hang_refutes p!"daemon" (call_fair _ hp) fun n s h =>
    C93_daemon_hangs _ programs Example.world _ _ _ _ n s _ _ hp.1.sendable rfl rfl (.inr ⟨rfl, rfl, trivial⟩) h

/-- Every packet begins with a number of four bytes. -/
theorem encoding_length {p : Packet} (hp : p.Sendable) : 4 ≤ (encoding p).length := by
  obtain ⟨b, hb, _⟩ := Wire.serFields_ok (Wire.schema p.kind) p.vals hp.1 hp.2
  have hw : Wire.writePacket p = (Wire.be 4 p.kind.id ++ b, none) := Wire.W.seq_ok (Wire.packId_ok _) hb
  rw [encoding, hw, List.length_append]
  have : (Wire.be 4 p.kind.id).length = 4 := by simp [Wire.be]
  omega

/-- A program that runs `reader` and then asks for something else. -/
def afterReader : Prog Unit := .req (call p!"reader") fun _ => .req .checkAlive fun _ => .ret ()

/-- Where one schedule of `afterReader` ends: the client waits for an answer, the dispatcher for the rest of the request. -/
def robbed (w : World) : State Unit :=
  { client := .busy [] .checkAlive fun _ => .ret (), server := .writing [], up := [], down := [],
    sbuf := (encoding .checkAlive).drop 1, cbuf := [], world := w, background := [] }

theorem robbed_stuck (sys : Sys) (life : Life) (cap : Nat) (w : World) : Stuck sys life cap (robbed w) := by
  have short : ∀ {p : Packet} {r : Bytes}, p.Sendable → (encoding .checkAlive).drop 1 = encoding p ++ r → False := by
    intro p r hp h
    have h1 := encoding_length hp
    have h2 := congrArg List.length h
    rw [List.length_append] at h2
    have h3 : ((encoding Packet.checkAlive).drop 1).length = 3 := by decide
    omega
  intro t h
  cases h with
  | submit p k hc => cases hc
  | send c left p k hc hne =>
    simp only [robbed, Caller.busy.injEq] at hc
    exact hne (List.append_eq_nil_iff.mp hc.1.symm).1
  | fetch p k c d hc hd hne => exact hne (List.append_eq_nil_iff.mp hd.symm).1
  | accept p k q r hc hb hq => exact encoding_ne_nil hq (List.append_eq_nil_iff.mp hb.symm).1
  | take c u hsv hu hne => exact hne (List.append_eq_nil_iff.mp hu.symm).1
  | handle p r b w hsv hb hp => exact short hp hb
  | quit p r b e w hsv hb hp => exact short hp hb
  | launch p r proc c w hsv hb hp => exact short hp hb
  | work j m c born hsv => cases hsv
  | kid j l x r m c born hsv => cases hsv
  | kidEnds j l x r code hsv => cases hsv
  | answer j code hsv => cases hsv
  | reply c left hsv hne => exact hne (List.append_eq_nil_iff.mp (Loop.writing.inj hsv).symm).1
  | back l x r m c born hb => exact absurd hb.symm (by simp [robbed])
  | backEnds l x r code hb => exact absurd hb.symm (by simp [robbed])

/-- The process of `reader`, and the host after it was started. -/
def readerProc : Proc :=
  { argv := [p!"reader"], stdin := none, capture := true, uid := 0, gid := 0, supp := [0, 10], umask := 0o077, cwd := [] }

def readerWorld : World := { Example.world with started := [readerProc] }

/-- The full statement of C93 is false of the code: a process that a command leaves behind can take bytes of a later request
away from the dispatcher, after which neither side ever gets what it waits for. -/
theorem C93_leftover_refuted :
    (∃ n, Steps (living Example.sys programs) programs 65536 n (initial afterReader Example.world) (robbed readerWorld))
    ∧ Stuck (living Example.sys programs) programs 65536 (robbed readerWorld) ∧ ¬ (robbed readerWorld).Finished := by
  refine ⟨⟨14, ?_⟩, robbed_stuck _ _ _ _, fun ⟨a, h⟩ => by cases h⟩
  have hp : Packet.Proper (call p!"reader") ∧ Tame (call p!"reader") ∧ Captured (call p!"reader") ∧ call p!"reader" ≠ .exit := by
    unfold call; concrete_request
  have hq : (Packet.processCompleted (some []) (some []) 0).Sendable := by
    simp [Packet.Sendable, Packet.Fits, Packet.Small, Packet.kind, Packet.vals, Wire.schema, Wire.AllFields, Wire.Fits, Wire.Small]
  have h0 := Steps.refl (sys := living Example.sys programs) (life := programs) (cap := 65536) (initial afterReader Example.world)
  have h1 := Steps.step _ _ _ _ h0 (.submit _ _ _ rfl rfl)
  have h2 := Steps.step _ _ _ _ h1 (.send _ (encoding (call p!"reader")) [] _ _ rfl (by decide) (by decide))
  have h3 := Steps.step _ _ _ _ h2 (.take _ (encoding (call p!"reader")) [] rfl rfl (by decide))
  have h4 := Steps.step _ _ _ _ h3 (.launch _ (call p!"reader") [] readerProc _ readerWorld rfl rfl hp.1.sendable rfl)
  have h5 := Steps.step _ _ _ _ h4 (.work _ _ _ _ _ rfl (.fork _ _ _ _ _))
  have h6 := Steps.step _ _ _ _ h5 (.answer _ _ 0 rfl rfl (fun _ x hx => by cases List.mem_singleton.mp hx; rfl))
  have h7 := Steps.step _ _ _ _ h6 (.reply _ (encoding (.processCompleted (some []) (some []) 0)) [] rfl (by decide) (by decide))
  have h8 := Steps.step _ _ _ _ h7 (.fetch _ _ _ (encoding (.processCompleted (some []) (some []) 0)) [] rfl rfl (by decide))
  have h9 := Steps.step _ _ _ _ h8 (.accept _ _ _ (.processCompleted (some []) (some []) 0) [] rfl rfl hq)
  have h10 := Steps.step _ _ _ _ h9 (.submit _ _ _ rfl rfl)
  have h11 := Steps.step _ _ _ _ h10 (.send _ (encoding .checkAlive) [] _ _ rfl (by decide) (by decide))
  have h12 := Steps.step _ _ _ _ h11 (.back _ [] _ [] _ _ _ rfl (.readWire _ _ 0 _ rfl rfl))
  have h13 := Steps.step _ _ _ _ h12 (.backEnds _ [] _ [] 0 rfl rfl)
  have h14 := Steps.step _ _ _ _ h13 (.take _ ((encoding .checkAlive).drop 1) [] rfl rfl (by decide))
  exact h14

end Verif.Pipes
