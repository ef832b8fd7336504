/-
Helper lemmas about processes that run at the same time.
-/
import Verif.Client.PipesSpec

namespace Verif.Pipes

open Wire (Packet encoding)
open Remote
open Client (Prog unpackResponse direct)

/-! ### How long a program runs -/

/-- The number of steps of a program and everything it starts. -/
def Cmd.ticks : Cmd → Bytes → Nat
  | .exit _, _ => 1
  | .print _ _ k, i => 1 + k.ticks i
  | .read k, [] => 1 + (k none).ticks []
  | .read k, x :: i => 1 + (k (some x)).ticks i
  | .fork _ _ c k, i => 1 + c.ticks [] + k.ticks i
  | .stay, _ => 0

def ticksOf : List Child → Nat
  | [] => 0
  | x :: l => x.prog.ticks [] + ticksOf l

theorem ticksOf_append (l r : List Child) : ticksOf (l ++ r) = ticksOf l + ticksOf r := by
  induction l with
  | nil => simp [ticksOf]
  | cons x l ih => simp only [List.cons_append, ticksOf, ih]; omega

theorem ticksOf_map (f : Child → Child) (hf : ∀ x, (f x).prog = x.prog) (l : List Child) : ticksOf (l.map f) = ticksOf l := by
  induction l with
  | nil => rfl
  | cons x l ih => simp only [List.map_cons, ticksOf, ih, hf]

/-- A process that does not touch what it shares. -/
def Child.Ok (captured : Bool) (x : Child) : Prop := x.prog.Aloof captured x.stdin x.stdout

theorem Cmd.Aloof.mono {captured : Bool} : ∀ {c : Cmd} {i o i' o' : Bool}, c.Aloof captured i o → (i = false → i' = false) →
    (o = false → o' = false) → c.Aloof captured i' o'
  | .exit _, _, _, _, _, _, _, _ => trivial
  | .print _ _ k, _, _, _, _, h, hi, ho => ⟨ho h.1, Cmd.Aloof.mono (c := k) h.2 hi ho⟩
  | .read k, _, _, _, _, h, hi, ho => ⟨hi h.1, Cmd.Aloof.mono (c := k none) h.2 hi ho⟩
  | .fork i1 o1 c k, i, o, i', o', h, hi, ho =>
    ⟨Cmd.Aloof.mono (c := c) h.1 (by cases i <;> cases i1 <;> simp_all) (by cases o <;> cases o1 <;> simp_all),
      Cmd.Aloof.mono (c := k) h.2 hi ho⟩
  | .stay, _, o, _, o', h, _, ho => by
    intro hc
    apply h
    refine ⟨?_, hc.2⟩
    cases o
    · rw [ho rfl] at hc; exact absurd hc.1 (by decide)
    · rfl

theorem Cmd.Aloof.uncaptured {captured : Bool} : ∀ {c : Cmd} {i o : Bool}, c.Aloof captured i o → c.Aloof false i o
  | .exit _, _, _, _ => trivial
  | .print _ _ k, _, _, h => ⟨h.1, Cmd.Aloof.uncaptured (c := k) h.2⟩
  | .read k, _, _, h => ⟨h.1, Cmd.Aloof.uncaptured (c := k none) h.2⟩
  | .fork _ _ c k, _, _, h => ⟨Cmd.Aloof.uncaptured (c := c) h.1, Cmd.Aloof.uncaptured (c := k) h.2⟩
  | .stay, _, _, _ => by rintro ⟨_, h⟩; cases h

theorem aloof_moves {cap : Nat} {captured i o : Bool} {src dst : Stream} {m m' : Mem} {c c' : Cmd} {born : List Child}
    (ha : c.Aloof captured i o) (hi : i = false → src = .null) (ho : o = false → dst = .null)
    (h : Moves cap src dst m c m' c' born) :
    m' = m ∧ c'.Aloof captured i o ∧ (∀ x ∈ born, x.prog.Aloof captured (i && x.stdin) (o && x.stdout))
      ∧ c'.ticks [] + ticksOf born < c.ticks [] := by
  cases h with
  | printNull e b k hd => exact ⟨rfl, ha.2, nofun, by simp [Cmd.ticks, ticksOf]⟩
  | printOut b k hd => rw [ho ha.1] at hd; cases hd
  | printErr b k hd => rw [ho ha.1] at hd; cases hd
  | printTerm b k hd => rw [ho ha.1] at hd; cases hd
  | printWire c b k hd => rw [ho ha.1] at hd; cases hd
  | printDone k hd => rw [ho ha.1] at hd; cases hd
  | readNull k hd => exact ⟨rfl, ha.2, nofun, by simp [Cmd.ticks, ticksOf]⟩
  | readEnd k hd => rw [hi ha.1] at hd; cases hd
  | readOwn k x r hd => rw [hi ha.1] at hd; cases hd
  | readWire k x r hd => rw [hi ha.1] at hd; cases hd
  | fork a b c k =>
    refine ⟨rfl, ha.2, fun x hx => ?_, by simp only [Cmd.ticks, ticksOf]; omega⟩
    cases List.mem_singleton.mp hx
    exact ha.1

theorem aloof_progress {cap : Nat} {captured i o : Bool} {src dst : Stream} {m : Mem} {c : Cmd}
    (ha : c.Aloof captured i o) (hi : i = false → src = .null) (hc : o = true ∧ captured = true) :
    (∃ code, c = .exit code) ∨ ∃ m' c' born, Moves cap src dst m c m' c' born := by
  cases c with
  | exit code => exact .inl ⟨_, rfl⟩
  | print e b k => have := ha.1; rw [hc.1] at this; cases this
  | read k => exact .inr ⟨_, _, _, .readNull _ _ (hi ha.1)⟩
  | fork a b c k => exact .inr ⟨_, _, _, .fork _ _ _ _ _⟩
  | stay => exact absurd hc ha

/-- What a command whose output is not captured prints. -/
theorem calm_silent {given : Bool} : ∀ (c : Cmd) (i : Bytes), c.Calm given false → (c.outcome i).out = []
  | .exit _, _, _ => rfl
  | .print false _ _, _, h => by have := h.1 rfl; cases this
  | .print true _ k, i, h => calm_silent k i h.2
  | .read k, [], h => calm_silent (k none) [] (h.2 none)
  | .read k, x :: i, h => calm_silent (k (some x)) i (h.2 (some x))
  | .fork _ _ _ k, i, h => calm_silent k i h.2
  | .stay, _, h => h.elim

/-- What a command and its pipes will have produced in the end. -/
def Ends (captured : Bool) (m : Mem) (c : Cmd) (r : Outcome) : Prop :=
  (c.outcome m.input).code = r.code ∧
  (captured = true → m.out ++ (c.outcome m.input).out = r.out ∧ m.err ++ (c.outcome m.input).err = r.err)

theorem calm_moves {cap : Nat} {given captured : Bool} {m m' : Mem} {c c' : Cmd} {born : List Child} {r : Outcome}
    (ha : c.Calm given captured) (hr : Ends captured m c r)
    (h : Moves cap (if given then .own else .wire) (if captured then .own else .wire) m c m' c' born) :
    m'.up = m.up ∧ m'.down = m.down ∧ c'.Calm given captured ∧ Ends captured m' c' r ∧ (∀ x ∈ born, x.Ok captured)
      ∧ c'.ticks m'.input + ticksOf born < c.ticks m.input := by
  cases h with
  | printNull e b k hd => cases captured <;> cases hd
  | printOut b k hd =>
    refine ⟨rfl, rfl, ha.2, ⟨hr.1, fun hc => ?_⟩, nofun, by simp [Cmd.ticks, ticksOf]⟩
    have := hr.2 hc
    simp only [Cmd.outcome] at this
    exact ⟨by rw [← this.1, List.append_assoc], this.2⟩
  | printErr b k hd =>
    refine ⟨rfl, rfl, ha.2, ⟨hr.1, fun hc => ?_⟩, nofun, by simp [Cmd.ticks, ticksOf]⟩
    have := hr.2 hc
    simp only [Cmd.outcome] at this
    exact ⟨this.1, by rw [← this.2, List.append_assoc]⟩
  | printTerm b k hd =>
    cases captured with
    | true => cases hd
    | false => exact ⟨rfl, rfl, ha.2, ⟨hr.1, nofun⟩, nofun, by simp [Cmd.ticks, ticksOf]⟩
  | printWire c b k hd => have := ha.1 rfl; subst this; cases hd
  | printDone k hd => have := ha.1 rfl; subst this; cases hd
  | readNull k hd => cases given <;> cases hd
  | readEnd k hd hi =>
    refine ⟨rfl, rfl, ha.2 _, ?_, nofun, by simp [Cmd.ticks, ticksOf, hi]⟩
    unfold Ends at hr ⊢
    rw [hi] at hr ⊢
    exact hr
  | readOwn k x i hd hi =>
    refine ⟨rfl, rfl, ha.2 _, ?_, nofun, by simp [Cmd.ticks, ticksOf, hi]⟩
    unfold Ends at hr ⊢
    rw [hi] at hr
    exact hr
  | readWire k x i hd => have := ha.1; subst this; cases hd
  | fork a b c k =>
    refine ⟨rfl, rfl, ha.2, hr, fun x hx => ?_, by simp only [Cmd.ticks, ticksOf]; omega⟩
    cases List.mem_singleton.mp hx
    exact ha.1

theorem calm_progress {cap : Nat} {given captured : Bool} {m : Mem} {c : Cmd} (ha : c.Calm given captured) :
    (∃ code, c = .exit code)
    ∨ ∃ m' c' born, Moves cap (if given then .own else .wire) (if captured then .own else .wire) m c m' c' born := by
  cases c with
  | exit code => exact .inl ⟨_, rfl⟩
  | print e b k =>
    right
    cases captured with
    | true =>
      cases e with
      | false => exact ⟨_, _, _, .printOut _ _ _ rfl⟩
      | true => exact ⟨_, _, _, .printErr _ _ _ rfl⟩
    | false =>
      cases e with
      | false => have := ha.1 rfl; cases this
      | true => exact ⟨_, _, _, .printTerm _ _ _ rfl⟩
  | read k =>
    right
    have := ha.1
    subst this
    cases hm : m.input with
    | nil => exact ⟨_, _, _, .readEnd _ _ rfl hm⟩
    | cons x i => exact ⟨_, _, _, .readOwn _ _ _ _ rfl hm⟩
  | fork a b c k => exact .inr ⟨_, _, _, .fork _ _ _ _ _⟩
  | stay => exact ha.elim

/-! ### Requests -/

theorem plan_proc {sys : Sys} {command : List Str} {stdin : Option Bytes} {capture : Bool} {user group umask cwd : Option Str}
    {w : World} {proc : Proc} (h : Client.plan sys command stdin capture user group umask cwd w = .ok proc) :
    proc.argv = command ∧ proc.stdin = stdin ∧ proc.capture = capture := by
  unfold Client.plan at h
  repeat' split at h
  all_goals first
    | (cases h; done)
    | (cases h; exact ⟨rfl, rfl, rfl⟩)

/-- What every request of the program satisfies. -/
def Fair (life : Life) (p : Packet) : Prop := Packet.Proper p ∧ Tame p ∧ Undisturbed life p ∧ p ≠ .exit

theorem launched_some {sys : Sys} {life : Life} {p : Packet} {w w' : World} {proc : Proc} {c : Cmd}
    (h : launched sys life p w = some (proc, c, w')) :
    ∃ command user group umask cwd, p = .processRun command proc.stdin proc.capture user group umask cwd ∧ proc.argv = command
      ∧ Client.plan sys command proc.stdin proc.capture user group umask cwd w = .ok proc
      ∧ life proc { w with started := proc :: w.started } = .runs c w' := by
  cases p with
  | processRun command stdin capture user group umask cwd =>
    simp only [launched] at h
    split at h
    · next pr hpl =>
      split at h
      · next cc ww hl =>
        cases h
        obtain ⟨h1, h2, h3⟩ := plan_proc hpl
        subst h2 h3
        exact ⟨command, user, group, umask, cwd, rfl, h1, hpl, hl⟩
      · cases h
    · cases h
  | _ => cases h

theorem launched_calm {sys : Sys} {life : Life} {p : Packet} {w w' : World} {proc : Proc} {c : Cmd} (hu : Undisturbed life p)
    (h : launched sys life p w = some (proc, c, w')) : c.Calm proc.stdin.isSome proc.capture := by
  obtain ⟨command, user, group, umask, cwd, rfl, h1, _, h3⟩ := launched_some h
  exact hu proc _ _ c h1 rfl rfl h3

/-- The answer of a command with this outcome. -/
def completed (capture : Bool) (r : Outcome) : Packet :=
  if capture then .processCompleted (some r.out) (some r.err) r.code else .processCompleted none none r.code

theorem handle_launched {sys : Sys} {life : Life} {p : Packet} {w w' : World} {proc : Proc} {c : Cmd} (hu : Undisturbed life p)
    (h : launched (living sys life) life p w = some (proc, c, w')) :
    handle (living sys life) p w = (.answer [] (completed proc.capture (c.outcome (proc.stdin.getD []))), w') := by
  have hcalm := launched_calm hu h
  obtain ⟨command, user, group, umask, cwd, rfl, h1, h2, h3⟩ := launched_some h
  show handleRun _ _ _ _ _ _ _ _ _ = _
  rw [Client.handleRun_eq, h2]
  have he : (living sys life).exec proc { w with started := proc :: w.started }
      = (.done (c.outcome (proc.stdin.getD [])).out (c.outcome (proc.stdin.getD [])).err (c.outcome (proc.stdin.getD [])).code, w') := by
    show (match life proc _ with | .failed e => _ | .runs c w' => _) = _
    rw [h3]
  simp only [he, Client.finish]
  cases hc : proc.capture with
  | true => rfl
  | false =>
    rw [hc] at hcalm
    simp only [calm_silent c _ hcalm, completed]
    rfl

theorem handle_unlaunched {sys : Sys} {life : Life} {p : Packet} {w w' : World} {raw : Bytes} {q : Packet}
    (h : launched (living sys life) life p w = none) (hh : handle (living sys life) p w = (.answer raw q, w')) : raw = [] := by
  cases p with
  | processRun command stdin capture user group umask cwd =>
    have hh' : handleRun (living sys life) command stdin capture user group umask cwd w = (.answer raw q, w') := hh
    rw [Client.handleRun_eq] at hh'
    simp only [launched] at h
    split at h
    · next proc hpl =>
      rw [hpl] at hh'
      split at h
      · cases h
      · next e hl =>
        have he : (living sys life).exec proc { w with started := proc :: w.started } = (.failed e, { w with started := proc :: w.started }) := by
          show (match life proc _ with | .failed e => _ | .runs c w' => _) = _
          rw [hl]
        simp only [he, Client.finish] at hh'
        cases hh'
    · next r hpl =>
      rw [hpl] at hh'
      rcases Client.plan_error hpl with ⟨f, m, rfl⟩ | ⟨m, rfl⟩ | ⟨e, rfl⟩
      · cases hh'; rfl
      · cases hh'; rfl
      · cases hh'
  | _ => exact (handle_answers hh).2 trivial

/-- Every request is answered with one packet, the one that the direct view prescribes. -/
theorem dispatch_fair {sys : Sys} {life : Life} (hs : (living sys life).Sane) {w : World} (hw : w.Sane) {p : Packet} (hp : Fair life p) :
    ∃ q w', q.Sendable ∧ w'.Sane ∧ dispatch (living sys life) p w = ((encoding q, .next), w')
      ∧ direct (living sys life) p w = (unpackResponse p q, w')
      ∧ ∀ proc c w'', launched (living sys life) life p w = some (proc, c, w'') →
          w'' = w' ∧ q = completed proc.capture (c.outcome (proc.stdin.getD [])) := by
  obtain ⟨h1, h2, h3, h4⟩ := hp
  have hg := handle_good hs hw h1
  unfold dispatch direct
  cases hh : handle (living sys life) p w with
  | mk r w' =>
    rw [hh] at hg
    have hl : ∀ proc c w'', launched (living sys life) life p w = some (proc, c, w'') →
        r = .answer [] (completed proc.capture (c.outcome (proc.stdin.getD []))) ∧ w'' = w' := by
      intro proc c w'' hl
      have := handle_launched h3 hl
      rw [hh] at this
      cases this
      exact ⟨rfl, rfl⟩
    cases r with
    | answer raw q =>
      have hraw : raw = [] := by
        cases hl' : launched (living sys life) life p w with
        | none => exact handle_unlaunched hl' hh
        | some x => have := (hl _ _ _ hl').1; cases this; rfl
      subst hraw
      refine ⟨q, w', hg.1.1, hg.2, ?_, rfl, fun proc c w'' h => ?_⟩
      · simp only [respond, (Wire.writePacket_ok hg.1.1).1, List.nil_append]
      · have := hl _ _ _ h
        exact ⟨this.2, by cases this.1; rfl⟩
    | close => exact absurd hg.1 h4
    | raise e =>
      obtain ⟨n, s, m, rfl, hsend⟩ := hg.1 h2
      refine ⟨.osError n s m, w', hsend, hg.2, ?_, rfl, fun proc c w'' h => ?_⟩
      · simp only [respond, (Wire.writePacket_ok hsend).1, List.nil_append]
      · have := (hl _ _ _ h).1; cases this

/-! ### The phases of a program -/

section
variable {α : Type} (sys : Sys) (life : Life)

/-- The steps that a request costs after it has been received. -/
def toil (p : Packet) (w : World) : Nat :=
  match launched (living sys life) life p w with
  | some (proc, c, _) => c.ticks (proc.stdin.getD []) + 1
  | none => 0

/-- The steps that are left after the answer has been received. -/
def cost : Prog α → World → Nat
  | .ret _, _ => 0
  | .req p k, w =>
    let r := direct (living sys life) p w
    2 + 2 * (encoding p).length + toil sys life p w + 2 * (dispatch (living sys life) p w).1.1.length + 1 + cost (k r.1) r.2

/-- Where the program is, what it will return, and a bound on the number of steps that are left, apart from those of the
processes in the background. -/
inductive Phase (T : α × World) : Nat → State α → Prop where
  | between (s : State α) (prog : Prog α) : s.client = .ready prog → s.Quiet → prog.All (Fair life) →
      prog.run (direct (living sys life)) s.world = T → Phase T (cost sys life prog s.world) s
  | asking (s : State α) (left : Bytes) (p : Packet) (k : Except Exn Packet → Prog α) (n : Nat) :
      s.client = .busy left p k → s.server = .writing [] →
      s.sbuf ++ s.up ++ left = encoding p → s.down = [] → s.cbuf = [] → Fair life p → (∀ r, (k r).All (Fair life)) →
      (Prog.req p k).run (direct (living sys life)) s.world = T →
      n = 2 * left.length + s.up.length + 1 + toil sys life p s.world + 2 * (dispatch (living sys life) p s.world).1.1.length + 1
        + cost sys life (k (direct (living sys life) p s.world).1) (direct (living sys life) p s.world).2 → Phase T n s
  | working (s : State α) (j : Job) (p q : Packet) (k : Except Exn Packet → Prog α) (r : Outcome) (n : Nat) :
      s.client = .busy [] p k → s.server = .running j →
      s.sbuf = [] → s.up = [] → s.down = [] → s.cbuf = [] → (∀ r, (k r).All (Fair life)) →
      j.main.Calm j.given j.captured → Ends j.captured (s.mem j) j.main r → q = completed j.captured r → q.Sendable →
      (∀ x ∈ j.kids, x.Ok j.captured) →
      (k (unpackResponse p q)).run (direct (living sys life)) s.world = T →
      n = j.main.ticks j.input + ticksOf j.kids + 2 * (encoding q).length + 1 + cost sys life (k (unpackResponse p q)) s.world →
      Phase T n s
  | answered (s : State α) (left : Bytes) (p q : Packet) (k : Except Exn Packet → Prog α) (n : Nat) :
      s.client = .busy [] p k → s.server = .writing left → s.sbuf = [] → s.up = [] →
      s.cbuf ++ s.down ++ left = encoding q → q.Sendable → (∀ r, (k r).All (Fair life)) →
      (k (unpackResponse p q)).run (direct (living sys life)) s.world = T →
      n = 2 * left.length + s.down.length + 1 + cost sys life (k (unpackResponse p q)) s.world → Phase T n s

/-- The phase, together with the processes in the background. -/
def Inv (T : α × World) (n : Nat) (s : State α) : Prop :=
  ∃ m, Phase sys life T m s ∧ n = m + ticksOf s.background ∧ (∀ x ∈ s.background, x.Ok false) ∧ s.world.Sane

end

/-- A packet at the beginning of a stream that is the beginning of a packet. -/
theorem prefix_packet {p q : Packet} {r t : Bytes} (hp : p.Sendable) (hq : q.Sendable) (h : encoding p ++ r ++ t = encoding q) :
    p = q ∧ r = [] ∧ t = [] := by
  have hpre : encoding p <+: encoding q := ⟨r ++ t, by rw [← List.append_assoc]; exact h⟩
  have : p = q := by
    obtain ⟨x, hx⟩ := hpre
    have h1 := (Wire.writePacket_ok hp).2 x
    have h2 := (Wire.writePacket_ok hq).2 []
    rw [List.append_nil, ← hx] at h2
    rw [h1] at h2
    exact Except.ok.inj (Prod.ext_iff.mp h2).1
  subst this
  rw [List.append_assoc] at h
  have := List.append_cancel_left (as := encoding p) (bs := r ++ t) (cs := []) (by rw [List.append_nil]; exact h)
  exact ⟨rfl, by simpa using this⟩

theorem encoding_ne_nil {p : Packet} (hp : p.Sendable) : encoding p ≠ [] := by
  intro h
  have h1 := (Wire.writePacket_ok hp).2 []
  rw [h] at h1
  cases h1

section
variable {α : Type} {sys : Sys} {life : Life}

theorem Phase.congr {T : α × World} {n : Nat} {s t : State α} (h : Phase sys life T n s) (h1 : t.client = s.client)
    (h2 : t.server = s.server) (h3 : t.up = s.up) (h4 : t.down = s.down) (h5 : t.sbuf = s.sbuf) (h6 : t.cbuf = s.cbuf)
    (h7 : t.world = s.world) : Phase sys life T n t := by
  obtain ⟨c, v, u, d, sb, cb, w, b⟩ := s
  obtain ⟨c', v', u', d', sb', cb', w', b'⟩ := t
  simp only at h1 h2 h3 h4 h5 h6 h7
  subst h1 h2 h3 h4 h5 h6 h7
  cases h with
  | between _ prog a1 a2 a3 a4 => exact .between { client := c', server := v', up := u', down := d', sbuf := sb', cbuf := cb', world := w', background := b' } prog a1 a2 a3 a4
  | asking _ left p k _ a1 a2 a3 a4 a5 a6 a7 a8 a9 => exact .asking _ left p k _ a1 a2 a3 a4 a5 a6 a7 a8 a9
  | working _ j p q k r _ a1 a2 a3 a4 a5 a6 a7 a8 a9 b1 b2 b3 b4 b5 => exact .working _ j p q k r _ a1 a2 a3 a4 a5 a6 a7 a8 a9 b1 b2 b3 b4 b5
  | answered _ left p q k _ a1 a2 a3 a4 a5 a6 a7 a8 a9 => exact .answered _ left p q k _ a1 a2 a3 a4 a5 a6 a7 a8 a9

theorem shared_null {b : Bool} (h : b = false) : shared b = .null := by rw [h]; rfl

theorem source_null {j : Job} {b : Bool} (h : b = false) : j.source b = .null := by rw [h]; rfl

theorem sink_null {j : Job} {b : Bool} (h : b = false) : j.sink b = .null := by rw [h]; rfl

theorem under_ok {captured : Bool} {x : Child} {born : List Child}
    (h : ∀ y ∈ born, y.prog.Aloof captured (x.stdin && y.stdin) (x.stdout && y.stdout)) :
    ∀ z ∈ born.map x.under, z.Ok captured := by
  intro z hz
  obtain ⟨y, hy, rfl⟩ := List.mem_map.mp hz
  exact h y hy

theorem leave_ok {j : Job} {x : Child} (h : x.Ok j.captured) : (j.leave x).Ok false :=
  (Cmd.Aloof.mono (i' := x.stdin && !j.given) (o' := x.stdout && !j.captured) h (fun h => by rw [h]; rfl) (fun h => by rw [h]; rfl)).uncaptured

theorem mid_ok {P : Child → Prop} {l r b : List Child} {x y : Child} (h : ∀ z ∈ l ++ x :: r, P z) (hy : P y) (hb : ∀ z ∈ b, P z) :
    ∀ z ∈ l ++ y :: r ++ b, P z := by
  intro z hz
  simp only [List.append_assoc, List.cons_append, List.mem_append, List.mem_cons] at hz
  rcases hz with hz | rfl | hz | hz
  · exact h z (by simp [hz])
  · exact hy
  · exact h z (by simp [hz])
  · exact hb z hz

theorem drop_ok {P : Child → Prop} {l r : List Child} {x : Child} (h : ∀ z ∈ l ++ x :: r, P z) : ∀ z ∈ l ++ r, P z := by
  intro z hz
  rw [List.mem_append] at hz
  rcases hz with hz | hz
  · exact h z (by simp [hz])
  · exact h z (by simp [hz])

/-- Every step leads to a phase of the same program with fewer steps left. -/
theorem inv_step (hs : (living sys life).Sane) {cap : Nat} {T : α × World} {n : Nat} {s t : State α} (hi : Inv sys life T n s)
    (h : Step (living sys life) life cap s t) : ∃ n', n' < n ∧ Inv sys life T n' t := by
  obtain ⟨m, hph, rfl, hback, hw⟩ := hi
  -- steps that do not concern the background
  suffices hsuff : (∃ m', ∃ b : List Child, Phase sys life T m' t ∧ t.background = s.background ++ b ∧ m' + ticksOf b < m
      ∧ (∀ x ∈ b, x.Ok false) ∧ t.world.Sane)
      ∨ (∃ b, t = { s with background := b } ∧ ticksOf b < ticksOf s.background ∧ ∀ x ∈ b, x.Ok false) by
    rcases hsuff with ⟨m', b, h1, h2, h3, h4, h5⟩ | ⟨b, rfl, h2, h3⟩
    · refine ⟨m' + ticksOf t.background, ?_, m', h1, rfl, ?_, h5⟩
      · rw [h2, ticksOf_append]; omega
      · rw [h2]
        intro x hx
        rcases List.mem_append.mp hx with hx | hx
        · exact hback x hx
        · exact h4 x hx
    · exact ⟨m + ticksOf b, by omega, m, hph.congr rfl rfl rfl rfl rfl rfl rfl, rfl, h3, hw⟩
  have plain : ∀ {m' : Nat}, Phase sys life T m' t → t.background = s.background → m' < m → t.world.Sane →
      (∃ m', ∃ b : List Child, Phase sys life T m' t ∧ t.background = s.background ++ b ∧ m' + ticksOf b < m
      ∧ (∀ x ∈ b, x.Ok false) ∧ t.world.Sane)
      ∨ (∃ b, t = { s with background := b } ∧ ticksOf b < ticksOf s.background ∧ ∀ x ∈ b, x.Ok false) :=
    fun h1 h2 h3 h4 => .inl ⟨_, [], h1, by rw [h2, List.append_nil], by simpa [ticksOf] using h3, nofun, h4⟩
  cases h with
  | submit p k hc hwr =>
    cases hph with
    | between _ prog a1 a2 a3 a4 =>
      rw [hc] at a1
      cases a1
      cases a3 with
      | req _ _ b1 b2 =>
        obtain ⟨q1, q2, q3, q4, q5⟩ := a2
        refine plain (.asking _ (encoding p) p k _ rfl q1 ?_ q3 q5 b1 b2 a4 rfl) rfl ?_ hw
        · simp only [q2, q4, List.nil_append]
        · simp only [q2, cost, List.length_nil]; omega
    | asking _ left p k _ a1 => rw [hc] at a1; cases a1
    | working _ j p q k r _ a1 => rw [hc] at a1; cases a1
    | answered _ left p q k _ a1 => rw [hc] at a1; cases a1
  | send c left p k hc hne hcap =>
    have hlen : 0 < c.length := List.length_pos_iff.mpr hne
    cases hph with
    | between _ prog a1 => rw [hc] at a1; cases a1
    | asking _ left p k _ a1 a2 a3 a4 a5 a6 a7 a8 a9 =>
      rw [hc] at a1
      cases a1
      refine plain (.asking _ _ _ _ _ rfl a2 ?_ a4 a5 a6 a7 a8 rfl) rfl ?_ hw
      · simpa [List.append_assoc] using a3
      · rw [a9]; simp only [List.length_append]; omega
    | working _ j p q k r _ a1 =>
      rw [hc] at a1
      simp only [Caller.busy.injEq, List.append_eq_nil_iff] at a1
      exact absurd a1.1.1 hne
    | answered _ left p q k _ a1 =>
      rw [hc] at a1
      simp only [Caller.busy.injEq, List.append_eq_nil_iff] at a1
      exact absurd a1.1.1 hne
  | fetch p k c d hc hd hne =>
    have hlen : 0 < c.length := List.length_pos_iff.mpr hne
    have hno : s.down ≠ [] := by rw [hd]; simp [hne]
    cases hph with
    | between _ prog a1 => rw [hc] at a1; cases a1
    | asking _ left p k _ a1 a2 a3 a4 => exact absurd a4 hno
    | working _ j p q k r _ a1 a2 a3 a4 a5 => exact absurd a5 hno
    | answered _ left p q k _ a1 a2 a3 a4 a5 a6 a7 a8 a9 =>
      rw [hc] at a1
      cases a1
      refine plain (.answered _ left p q k _ hc a2 a3 a4 ?_ a6 a7 a8 rfl) rfl ?_ hw
      · rw [hd] at a5
        simpa [List.append_assoc] using a5
      · rw [a9, hd]; simp only [List.length_append]; omega
  | accept p k q r hc hb hq =>
    have hno : s.cbuf ≠ [] := by rw [hb]; simp [encoding_ne_nil hq]
    cases hph with
    | between _ prog a1 => rw [hc] at a1; cases a1
    | asking _ left p k _ a1 a2 a3 a4 a5 => exact absurd a5 hno
    | working _ j p q k r _ a1 a2 a3 a4 a5 a6 => exact absurd a6 hno
    | answered _ left p q' k _ a1 a2 a3 a4 a5 a6 a7 a8 a9 =>
      rw [hc] at a1
      cases a1
      rw [hb, List.append_assoc] at a5
      obtain ⟨rfl, rfl, h2⟩ := prefix_packet hq a6 a5
      have h3 := List.append_eq_nil_iff.mp h2
      refine plain (.between _ (k (unpackResponse p q)) rfl ⟨?_, a4, h3.1, a3, rfl⟩ (a7 _) a8) rfl ?_ hw
      · rw [a2, h3.2]
      · rw [a9]; show cost _ _ _ s.world < _; omega
  | take c u hsv hu hne =>
    have hlen : 0 < c.length := List.length_pos_iff.mpr hne
    have hno : s.up ≠ [] := by rw [hu]; simp [hne]
    cases hph with
    | between _ prog a1 a2 => exact absurd a2.2.1 hno
    | asking _ left p k _ a1 a2 a3 a4 a5 a6 a7 a8 a9 =>
      refine plain (.asking _ left p k _ a1 a2 ?_ a4 a5 a6 a7 a8 rfl) rfl ?_ hw
      · rw [hu] at a3
        simpa [List.append_assoc] using a3
      · rw [a9, hu]; simp only [List.length_append]; omega
    | working _ j p q k r _ a1 a2 => rw [hsv] at a2; cases a2
    | answered _ left p q k _ a1 a2 a3 a4 => exact absurd a4 hno
  | handle p r b w hsv hb hp hl hd =>
    have hno : s.sbuf ≠ [] := by rw [hb]; simp [encoding_ne_nil hp]
    cases hph with
    | between _ prog a1 a2 => exact absurd a2.2.2.2.1 hno
    | asking _ left p' k _ a1 a2 a3 a4 a5 a6 a7 a8 a9 =>
      rw [hb, List.append_assoc] at a3
      obtain ⟨rfl, rfl, h2⟩ := prefix_packet hp a6.1.sendable a3
      obtain ⟨h3, rfl⟩ := List.append_eq_nil_iff.mp h2
      obtain ⟨q, w', d1, d2, d3, d4, d5⟩ := dispatch_fair hs hw a6
      rw [hd] at d3
      cases d3
      refine plain (.answered _ (encoding q) p q k _ a1 rfl rfl h3 ?_ d1 a7 ?_ rfl) rfl ?_ d2
      · simp [a4, a5]
      · rw [← a8]
        show _ = Prog.run _ (k (direct (living sys life) p s.world).1) (direct (living sys life) p s.world).2
        rw [d4]
      · rw [a9, hd, d4, a4, h3]
        simp only [List.length_nil]
        omega
    | working _ j p q k r _ a1 a2 => rw [hsv] at a2; cases a2
    | answered _ left p q k _ a1 a2 a3 a4 => exact absurd a3 hno
  | quit p r b e w hsv hb hp hl hd hne =>
    have hno : s.sbuf ≠ [] := by rw [hb]; simp [encoding_ne_nil hp]
    cases hph with
    | between _ prog a1 a2 => exact absurd a2.2.2.2.1 hno
    | asking _ left p' k _ a1 a2 a3 a4 a5 a6 a7 a8 a9 =>
      rw [hb, List.append_assoc] at a3
      obtain ⟨rfl, rfl, h2⟩ := prefix_packet hp a6.1.sendable a3
      obtain ⟨q, w', d1, d2, d3, d4, d5⟩ := dispatch_fair hs hw a6
      rw [hd] at d3
      cases d3
      exact absurd rfl hne
    | working _ j p q k r _ a1 a2 => rw [hsv] at a2; cases a2
    | answered _ left p q k _ a1 a2 a3 a4 => exact absurd a3 hno
  | launch p r proc c w hsv hb hp hl =>
    have hno : s.sbuf ≠ [] := by rw [hb]; simp [encoding_ne_nil hp]
    cases hph with
    | between _ prog a1 a2 => exact absurd a2.2.2.2.1 hno
    | asking _ left p' k _ a1 a2 a3 a4 a5 a6 a7 a8 a9 =>
      rw [hb, List.append_assoc] at a3
      obtain ⟨rfl, rfl, h2⟩ := prefix_packet hp a6.1.sendable a3
      obtain ⟨h3, rfl⟩ := List.append_eq_nil_iff.mp h2
      obtain ⟨q, w', d1, d2, d3, d4, d5⟩ := dispatch_fair hs hw a6
      obtain ⟨rfl, hq⟩ := d5 _ _ _ hl
      refine plain (.working _ (.begin proc c) p q k (c.outcome (proc.stdin.getD [])) _ a1 rfl rfl h3 a4 a5 a7
        (launched_calm a6.2.2.1 hl) ⟨rfl, fun _ => ⟨rfl, rfl⟩⟩ hq d1 nofun ?_ rfl) rfl ?_ d2
      · rw [← a8]
        show _ = Prog.run _ (k (direct (living sys life) p s.world).1) (direct (living sys life) p s.world).2
        rw [d4]
      · rw [a9, d3, d4, h3]
        simp only [toil, hl, Job.begin, ticksOf, List.length_nil]
        omega
    | working _ j p q k r _ a1 a2 => rw [hsv] at a2; cases a2
    | answered _ left p q k _ a1 a2 a3 a4 => exact absurd a3 hno
  | work j m c born hsv hm =>
    cases hph with
    | between _ prog a1 a2 => have := a2.1; rw [hsv] at this; cases this
    | asking _ left p k _ a1 a2 => rw [hsv] at a2; cases a2
    | answered _ left p q k _ a1 a2 => rw [hsv] at a2; cases a2
    | working _ j' p q k r _ a1 a2 a3 a4 a5 a6 a7 a8 a9 b1 b2 b3 b4 b5 =>
      rw [hsv] at a2
      cases a2
      obtain ⟨c1, c2, c3, c4, c5, c6⟩ := calm_moves a8 a9 hm
      refine plain (.working _ _ p q k r _ a1 rfl a3 ?_ ?_ a6 a7 c3 ?_ b1 b2 ?_ b4 rfl) rfl ?_ hw
      · show m.up = []; rw [c1]; exact a4
      · show m.down = []; rw [c2]; exact a5
      · exact c4
      · intro x hx
        rcases List.mem_append.mp hx with hx | hx
        · exact b3 x hx
        · exact c5 x hx
      · rw [b5]
        simp only [ticksOf_append, State.withMem, Job.withMem]
        have : (s.mem j).input = j.input := rfl
        rw [this] at c6
        omega
  | kid j l x r m c born hsv hk hm =>
    cases hph with
    | between _ prog a1 a2 => have := a2.1; rw [hsv] at this; cases this
    | asking _ left p k _ a1 a2 => rw [hsv] at a2; cases a2
    | answered _ left p q k _ a1 a2 => rw [hsv] at a2; cases a2
    | working _ j' p q k ro _ a1 a2 a3 a4 a5 a6 a7 a8 a9 b1 b2 b3 b4 b5 =>
      rw [hsv] at a2
      cases a2
      have hx : x.Ok j.captured := b3 x (by rw [hk]; simp)
      obtain ⟨rfl, c2, c3, c4⟩ := aloof_moves hx source_null sink_null hm
      refine plain (.working _ _ p q k ro _ a1 rfl a3 a4 a5 a6 a7 a8 a9 b1 b2 ?_ b4 rfl) rfl ?_ hw
      · rw [hk] at b3
        exact mid_ok b3 c2 (under_ok c3)
      · rw [b5, hk]
        simp only [ticksOf_append, ticksOf, Job.withMem, State.mem, State.withMem, ticksOf_map x.under (fun _ => rfl)]
        omega
  | kidEnds j l x r code hsv hk hx =>
    cases hph with
    | between _ prog a1 a2 => have := a2.1; rw [hsv] at this; cases this
    | asking _ left p k _ a1 a2 => rw [hsv] at a2; cases a2
    | answered _ left p q k _ a1 a2 => rw [hsv] at a2; cases a2
    | working _ j' p q k ro _ a1 a2 a3 a4 a5 a6 a7 a8 a9 b1 b2 b3 b4 b5 =>
      rw [hsv] at a2
      cases a2
      refine plain (.working _ _ p q k ro _ a1 rfl a3 a4 a5 a6 a7 a8 a9 b1 b2 ?_ b4 rfl) rfl ?_ hw
      · rw [hk] at b3
        exact drop_ok b3
      · rw [b5, hk]
        simp only [ticksOf_append, ticksOf, hx, Cmd.ticks]
        omega
  | answer j code hsv hmain hkids =>
    cases hph with
    | between _ prog a1 a2 => have := a2.1; rw [hsv] at this; cases this
    | asking _ left p k _ a1 a2 => rw [hsv] at a2; cases a2
    | answered _ left p q k _ a1 a2 => rw [hsv] at a2; cases a2
    | working _ j' p q k r _ a1 a2 a3 a4 a5 a6 a7 a8 a9 b1 b2 b3 b4 b5 =>
      rw [hsv] at a2
      cases a2
      have hresp : j.response code = q := by
        rw [b1]
        unfold Ends at a9
        rw [hmain] at a9
        simp only [Cmd.outcome, State.mem, List.append_nil] at a9
        unfold Job.response completed
        rw [a9.1]
        cases hc : j.captured with
        | false => rfl
        | true => rw [(a9.2 hc).1, (a9.2 hc).2]
      rw [hresp]
      refine .inl ⟨_, j.kids.map j.leave, .answered _ (encoding q) p q k _ a1 rfl a3 a4 ?_ b2 a7 b4 rfl, rfl, ?_, ?_, hw⟩
      · simp [a5, a6]
      · rw [ticksOf_map j.leave (fun _ => rfl), b5, hmain]
        simp only [a5, List.length_nil, Cmd.ticks]
        omega
      · intro x hx
        obtain ⟨y, hy, rfl⟩ := List.mem_map.mp hx
        exact leave_ok (b3 y hy)
  | reply c left hsv hne hcap =>
    have hlen : 0 < c.length := List.length_pos_iff.mpr hne
    have hno : ∀ {l : Bytes}, c ++ left = l → l ≠ [] := by rintro _ rfl; simp [hne]
    cases hph with
    | between _ prog a1 a2 =>
      have := a2.1
      rw [hsv] at this
      exact absurd rfl (hno (Loop.writing.inj this))
    | asking _ left p k _ a1 a2 =>
      rw [hsv] at a2
      exact absurd rfl (hno (Loop.writing.inj a2))
    | working _ j p q k r _ a1 a2 => rw [hsv] at a2; cases a2
    | answered _ left' p q k _ a1 a2 a3 a4 a5 a6 a7 a8 a9 =>
      rw [hsv] at a2
      cases a2
      refine plain (.answered _ left p q k _ a1 rfl a3 a4 ?_ a6 a7 a8 rfl) rfl ?_ hw
      · simpa [List.append_assoc] using a5
      · rw [a9]; simp only [List.length_append]; omega
  | back l x r m c born hb hm =>
    have hx : x.Ok false := hback x (by rw [hb]; simp)
    obtain ⟨rfl, c2, c3, c4⟩ := aloof_moves hx shared_null shared_null hm
    refine .inr ⟨_, rfl, ?_, ?_⟩
    · rw [hb]
      simp only [ticksOf_append, ticksOf, ticksOf_map x.under (fun _ => rfl)]
      omega
    · rw [hb] at hback
      exact mid_ok hback c2 (under_ok c3)
  | backEnds l x r code hb hx =>
    refine .inr ⟨_, rfl, ?_, ?_⟩
    · rw [hb]
      simp only [ticksOf_append, ticksOf, hx, Cmd.ticks]
      omega
    · rw [hb] at hback
      exact drop_ok hback

/-- As long as the program has not come to its end, something can happen. -/
theorem inv_progress (hs : (living sys life).Sane) {cap : Nat} (hcap : 0 < cap) {T : α × World} {n : Nat} {s : State α}
    (hi : Inv sys life T n s) : s.Finished ∨ ∃ t, Step (living sys life) life cap s t := by
  obtain ⟨m, hph, rfl, hback, hw⟩ := hi
  cases hph with
  | between _ prog a1 a2 a3 a4 =>
    cases a3 with
    | ret a => exact .inl ⟨a, a1⟩
    | req p k b1 b2 =>
      refine .inr ⟨_, .submit s p k a1 ?_⟩
      rw [(Wire.writePacket_ok b1.1.sendable).1]
  | asking _ left p k _ a1 a2 a3 a4 a5 a6 a7 a8 a9 =>
    right
    by_cases hu : s.up = []
    · cases left with
      | nil =>
        rw [hu, List.append_nil, List.append_nil] at a3
        have hb : s.sbuf = encoding p ++ [] := by rw [a3, List.append_nil]
        cases hl : launched (living sys life) life p s.world with
        | some x => exact ⟨_, .launch s p [] x.1 x.2.1 x.2.2 a2 hb a6.1.sendable hl⟩
        | none =>
          obtain ⟨q, w', d1, d2, d3, d4, d5⟩ := dispatch_fair hs hw a6
          exact ⟨_, .handle s p [] _ _ a2 hb a6.1.sendable hl d3⟩
      | cons x left =>
        exact ⟨_, .send s [x] left p k a1 (by simp) (by rw [hu]; simp only [List.length_nil, List.length_cons]; omega)⟩
    · exact ⟨_, .take s s.up [] a2 (by simp) hu⟩
  | working _ j p q k r _ a1 a2 a3 a4 a5 a6 a7 a8 a9 b1 b2 b3 b4 b5 =>
    right
    rcases calm_progress (cap := cap) (m := s.mem j) a8 with ⟨code, hm⟩ | ⟨m', c', born, hm⟩
    · by_cases hk : j.captured = true ∧ ∃ x ∈ j.kids, x.stdout = true
      · obtain ⟨hc, x, hx, ho⟩ := hk
        obtain ⟨l, r', hlr⟩ := List.append_of_mem hx
        rcases aloof_progress (cap := cap) (src := j.source x.stdin) (dst := j.sink x.stdout) (m := s.mem j) (b3 x hx) source_null ⟨ho, hc⟩ with
          ⟨code', hx'⟩ | ⟨m', c', born, hm'⟩
        · exact ⟨_, .kidEnds s j l x r' code' a2 hlr hx'⟩
        · exact ⟨_, .kid s j l x r' m' c' born a2 hlr hm'⟩
      · refine ⟨_, .answer s j code a2 hm fun hc x hx => ?_⟩
        cases ho : x.stdout with
        | false => rfl
        | true => exact absurd ⟨hc, x, hx, ho⟩ hk
    · exact ⟨_, .work s j m' c' born a2 hm⟩
  | answered _ left p q k _ a1 a2 a3 a4 a5 a6 a7 a8 a9 =>
    right
    by_cases hd : s.down = []
    · cases left with
      | nil =>
        rw [hd, List.append_nil, List.append_nil] at a5
        exact ⟨_, .accept s p k q [] a1 (by rw [a5, List.append_nil]) a6⟩
      | cons x left => exact ⟨_, .reply s [x] left a2 (by simp) (by rw [hd]; simp only [List.length_nil, List.length_cons]; omega)⟩
    · exact ⟨_, .fetch s p k s.down [] a1 (by simp) hd⟩

theorem inv_initial {prog : Prog α} {w : World} (hw : w.Sane) (hp : prog.All (Fair life)) :
    Inv sys life (prog.run (direct (living sys life)) w) (cost sys life prog w) (initial prog w) :=
  ⟨_, .between _ prog rfl ⟨rfl, rfl, rfl, rfl, rfl⟩ hp rfl, rfl, nofun, hw⟩

theorem inv_steps (hs : (living sys life).Sane) {cap : Nat} {T : α × World} {n k : Nat} {s t : State α} (hi : Inv sys life T k s)
    (h : Steps (living sys life) life cap n s t) : ∃ k', k' + n ≤ k ∧ Inv sys life T k' t := by
  induction h with
  | refl s => exact ⟨k, Nat.le_refl _, hi⟩
  | step n s t u _ h ih =>
    obtain ⟨k', h1, h2⟩ := ih hi
    obtain ⟨k'', h3, h4⟩ := inv_step hs h2 h
    exact ⟨k'', by omega, h4⟩

/-! ### Commands that are never answered -/

/-- What keeps a command from being answered: its main program and the processes it has started are always in one of these
states. -/
structure Hanging (P : Job → Prop) : Prop where
  /-- steps of the main program change nothing outside the command -/
  work : ∀ {cap j m m' c born}, P j → m.input = j.input → m.out = j.out → m.err = j.err → m.up = [] → m.down = [] →
    Moves cap (j.source true) (j.sink true) m j.main m' c born →
    m'.up = [] ∧ m'.down = [] ∧ P { j.withMem m' with main := c, kids := j.kids ++ born }
  kid : ∀ {cap j m l x r m' c born}, P j → m.input = j.input → m.out = j.out → m.err = j.err →
    j.kids = l ++ x :: r → Moves cap (j.source x.stdin) (j.sink x.stdout) m x.prog m' c born →
    m' = m ∧ P { j with kids := l ++ { x with prog := c } :: r ++ born.map x.under }
  ends : ∀ {j l x r code}, P j → j.kids = l ++ x :: r → x.prog = .exit code → P { j with kids := l ++ r }
  answer : ∀ {j code}, P j → j.main = .exit code → (j.captured = true → ∀ x ∈ j.kids, x.stdout = false) → False

/-- The request is on its way or the command is running. -/
inductive Waits (S : Sys) (P : Job → Prop) (p : Packet) (k : Except Exn Packet → Prog α) (w : World) : State α → Prop where
  | start : Waits S P p k w (initial (.req p k) w)
  | asking (s : State α) (left : Bytes) : s.client = .busy left p k → s.server = .writing [] →
      s.sbuf ++ s.up ++ left = encoding p → s.down = [] → s.cbuf = [] → s.background = [] → s.world = w → Waits S P p k w s
  | working (s : State α) (j : Job) : s.client = .busy [] p k → s.server = .running j → P j →
      s.sbuf = [] → s.up = [] → s.down = [] → s.cbuf = [] → s.background = [] → Waits S P p k w s

theorem waits_step {S : Sys} {P : Job → Prop} (hP : Hanging P) {p : Packet} (hp : p.Sendable)
    {k : Except Exn Packet → Prog α} {w w' : World} {proc : Proc} {c : Cmd}
    (hl : launched S life p w = some (proc, c, w')) (hbegin : P (.begin proc c)) {cap : Nat}
    {s t : State α} (hi : Waits S P p k w s) (h : Step S life cap s t) : Waits S P p k w t := by
  cases hi with
  | start =>
    cases h with
    | submit p' k' hc hwr => cases hc; exact .asking _ (encoding p) rfl rfl rfl rfl rfl rfl rfl
    | send c left p' k' hc => cases hc
    | fetch p' k' c d hc => cases hc
    | accept p' k' q r hc => cases hc
    | take c u hsv hu hne => exact absurd (List.append_eq_nil_iff.mp hu.symm).1 hne
    | handle p' r b w hsv hb hp' => exact absurd (List.append_eq_nil_iff.mp hb.symm).1 (encoding_ne_nil hp')
    | quit p' r b e w hsv hb hp' => exact absurd (List.append_eq_nil_iff.mp hb.symm).1 (encoding_ne_nil hp')
    | launch p' r proc c w hsv hb hp' => exact absurd (List.append_eq_nil_iff.mp hb.symm).1 (encoding_ne_nil hp')
    | work j m c born hsv => cases hsv
    | kid j l x r m c born hsv => cases hsv
    | kidEnds j l x r code hsv => cases hsv
    | answer j code hsv => cases hsv
    | reply c left hsv hne => exact absurd (List.append_eq_nil_iff.mp (Loop.writing.inj hsv).symm).1 hne
    | back l x r m c born hb => exact absurd hb.symm (by simp [initial])
    | backEnds l x r code hb => exact absurd hb.symm (by simp [initial])
  | asking _ left a1 a2 a3 a4 a5 a6 a7 =>
    cases h with
    | submit p' k' hc hwr => rw [hc] at a1; cases a1
    | send c left' p' k' hc hne hcap =>
      rw [hc] at a1
      cases a1
      exact .asking _ left' rfl a2 (by simpa [List.append_assoc] using a3) a4 a5 a6 a7
    | fetch p' k' c d hc hd hne => rw [a4] at hd; exact absurd (List.append_eq_nil_iff.mp hd.symm).1 hne
    | accept p' k' q r hc hb hq => rw [a5] at hb; exact absurd (List.append_eq_nil_iff.mp hb.symm).1 (encoding_ne_nil hq)
    | take c u hsv hu hne =>
      exact .asking _ left a1 a2 (by rw [hu] at a3; simpa [List.append_assoc] using a3) a4 a5 a6 a7
    | handle p' r b w'' hsv hb hp' hn =>
      rw [hb, List.append_assoc] at a3
      obtain ⟨rfl, rfl, h2⟩ := prefix_packet hp' hp a3
      rw [a7, hl] at hn
      cases hn
    | quit p' r b e w'' hsv hb hp' hn =>
      rw [hb, List.append_assoc] at a3
      obtain ⟨rfl, rfl, h2⟩ := prefix_packet hp' hp a3
      rw [a7, hl] at hn
      cases hn
    | launch p' r proc' c' w'' hsv hb hp' hn =>
      rw [hb, List.append_assoc] at a3
      obtain ⟨rfl, rfl, h2⟩ := prefix_packet hp' hp a3
      obtain ⟨h3, rfl⟩ := List.append_eq_nil_iff.mp h2
      rw [a7, hl] at hn
      cases hn
      exact .working _ _ a1 rfl hbegin rfl h3 a4 a5 a6
    | work j m c born hsv => rw [hsv] at a2; cases a2
    | kid j l x r m c born hsv => rw [hsv] at a2; cases a2
    | kidEnds j l x r code hsv => rw [hsv] at a2; cases a2
    | answer j code hsv => rw [hsv] at a2; cases a2
    | reply c left' hsv hne =>
      rw [hsv] at a2
      exact absurd (List.append_eq_nil_iff.mp (Loop.writing.inj a2)).1 hne
    | back l x r m c born hb => rw [a6] at hb; exact absurd hb.symm (by simp)
    | backEnds l x r code hb => rw [a6] at hb; exact absurd hb.symm (by simp)
  | working _ j a1 a2 hj a3 a4 a5 a6 a7 =>
    cases h with
    | submit p' k' hc hwr => rw [hc] at a1; cases a1
    | send c left' p' k' hc hne hcap =>
      rw [hc] at a1
      simp only [Caller.busy.injEq, List.append_eq_nil_iff] at a1
      exact absurd a1.1.1 hne
    | fetch p' k' c d hc hd hne => rw [a5] at hd; exact absurd (List.append_eq_nil_iff.mp hd.symm).1 hne
    | accept p' k' q r hc hb hq => rw [a6] at hb; exact absurd (List.append_eq_nil_iff.mp hb.symm).1 (encoding_ne_nil hq)
    | take c u hsv hu hne => rw [hsv] at a2; cases a2
    | handle p' r b w'' hsv => rw [hsv] at a2; cases a2
    | quit p' r b e w'' hsv => rw [hsv] at a2; cases a2
    | launch p' r proc' c' w'' hsv => rw [hsv] at a2; cases a2
    | work j' m c born hsv hm =>
      rw [hsv] at a2
      cases a2
      obtain ⟨h1, h2, h3⟩ := hP.work hj rfl rfl rfl a4 a5 hm
      exact .working _ _ a1 rfl h3 a3 h1 h2 a6 a7
    | kid j' l x r m c born hsv hk hm =>
      rw [hsv] at a2
      cases a2
      obtain ⟨rfl, h3⟩ := hP.kid hj rfl rfl rfl hk hm
      exact .working _ _ a1 rfl h3 a3 a4 a5 a6 a7
    | kidEnds j' l x r code hsv hk hx =>
      rw [hsv] at a2
      cases a2
      exact .working _ _ a1 rfl (hP.ends hj hk hx) a3 a4 a5 a6 a7
    | answer j' code hsv hm hk =>
      rw [hsv] at a2
      cases a2
      exact (hP.answer hj hm hk).elim
    | reply c left' hsv hne => rw [hsv] at a2; cases a2
    | back l x r m c born hb => rw [a7] at hb; exact absurd hb.symm (by simp)
    | backEnds l x r code hb => rw [a7] at hb; exact absurd hb.symm (by simp)

theorem waits_steps {S : Sys} {P : Job → Prop} (hP : Hanging P) {p : Packet} (hp : p.Sendable)
    {k : Except Exn Packet → Prog α} {w w' : World} {proc : Proc} {c : Cmd}
    (hl : launched S life p w = some (proc, c, w')) (hbegin : P (.begin proc c)) {cap n : Nat}
    {s : State α} (h : Steps S life cap n (initial (.req p k) w) s) : s.Waiting p k := by
  have : Waits S P p k w s := by
    generalize hs0 : initial (.req p k) w = s0 at h
    induction h with
    | refl s => subst hs0; exact .start
    | step n s t u _ h ih => exact waits_step hP hp hl hbegin (ih hs0) h
  cases this with
  | start => exact .inl rfl
  | asking _ left a1 => exact .inr ⟨left, a1⟩
  | working _ j a1 => exact .inr ⟨[], a1⟩

theorem source_true (j : Job) : j.source true = if j.given then .own else .wire := rfl
theorem sink_true (j : Job) : j.sink true = if j.captured then .own else .wire := rfl

/-- A command without input that reads. -/
def AskingJob (j : Job) : Prop := j.given = false ∧ j.main.Asks j.captured ∧ ∀ x ∈ j.kids, x.Ok j.captured

theorem asking_hangs : Hanging AskingJob where
  work := by
    intro cap j m m' c born ⟨h1, h2, h3⟩ hi ho he hu hd hm
    rw [source_true, sink_true, h1] at hm
    generalize hmain : j.main = main at hm h2
    have born_nil : ∀ x ∈ j.kids ++ [], x.Ok j.captured := by simpa using h3
    cases hm with
    | printNull e b k hd => cases hcap : j.captured <;> rw [hcap] at hd <;> cases hd
    | printOut b k _ => exact ⟨hu, hd, h1, h2.2, born_nil⟩
    | printErr b k _ => exact ⟨hu, hd, h1, h2.2, born_nil⟩
    | printTerm b k _ => exact ⟨hu, hd, h1, h2.2, born_nil⟩
    | printWire c b k hd => rw [h2.1 rfl] at hd; cases hd
    | printDone k hd => rw [h2.1 rfl] at hd; cases hd
    | readNull k hd => cases hd
    | readEnd k hd => cases hd
    | readOwn k x r hd => cases hd
    | readWire k x r _ hx => rw [hu] at hx; cases hx
    | fork a b c k =>
      refine ⟨hu, hd, h1, h2.2, fun x hx => ?_⟩
      rcases List.mem_append.mp hx with hx | hx
      · exact h3 x hx
      · cases List.mem_singleton.mp hx
        exact h2.1
  kid := by
    intro cap j m l x r m' c born ⟨h1, h2, h3⟩ _ _ _ hk hm
    have hx : x.Ok j.captured := h3 x (by rw [hk]; simp)
    obtain ⟨rfl, c2, c3, _⟩ := aloof_moves hx source_null sink_null hm
    refine ⟨rfl, h1, h2, ?_⟩
    rw [hk] at h3
    exact mid_ok h3 c2 (under_ok c3)
  ends := by
    intro j l x r code ⟨h1, h2, h3⟩ hk _
    rw [hk] at h3
    exact ⟨h1, h2, drop_ok h3⟩
  answer := by
    intro j code ⟨_, h2, _⟩ hm _
    rw [hm] at h2
    exact h2

/-- A command that leaves a process behind which keeps its output open. -/
def DaemonJob (j : Job) : Prop :=
  j.captured = true ∧ (∀ x ∈ j.kids, x.Ok true ∨ (x.prog = .stay ∧ x.stdout = true)) ∧
  (j.main.Daemon j.given ∨ (j.main.Calm j.given true ∧ ∃ x ∈ j.kids, x.prog = .stay ∧ x.stdout = true))

theorem calm_moves_streams {cap : Nat} {given captured : Bool} {m m' : Mem} {c c' : Cmd} {born : List Child} (ha : c.Calm given captured)
    (h : Moves cap (if given then .own else .wire) (if captured then .own else .wire) m c m' c' born) :
    m'.up = m.up ∧ m'.down = m.down ∧ c'.Calm given captured ∧ ∀ x ∈ born, x.Ok captured := by
  obtain ⟨h1, h2, h3, _, h4, _⟩ := calm_moves (r := ⟨m.out ++ (c.outcome m.input).out, m.err ++ (c.outcome m.input).err,
    (c.outcome m.input).code⟩) ha ⟨rfl, fun _ => ⟨rfl, rfl⟩⟩ h
  exact ⟨h1, h2, h3, h4⟩

theorem daemon_hangs : Hanging DaemonJob where
  work := by
    intro cap j m m' c born ⟨h1, h2, h3⟩ hi ho he hu hd hm
    rw [source_true, sink_true, h1] at hm
    rcases h3 with h3 | ⟨h3, y, hy, hy'⟩
    · generalize hmain : j.main = main at hm h3
      have nil : ∀ x ∈ j.kids ++ [], x.Ok true ∨ (x.prog = .stay ∧ x.stdout = true) := by simpa using h2
      cases hm with
      | printNull e b k hd => cases hd
      | printOut b k _ => exact ⟨hu, hd, h1, nil, .inl h3⟩
      | printErr b k _ => exact ⟨hu, hd, h1, nil, .inl h3⟩
      | printTerm b k hd => cases hd
      | printWire c b k hd => cases hd
      | printDone k hd => cases hd
      | readNull k hd => cases hg : j.given <;> rw [hg] at hd <;> cases hd
      | readEnd k _ => exact ⟨hu, hd, h1, nil, .inl (h3.2 _)⟩
      | readOwn k x r _ => exact ⟨hu, hd, h1, nil, .inl (h3.2 _)⟩
      | readWire k x r _ hx => rw [hu] at hx; cases hx
      | fork a b c k =>
        rcases h3 with ⟨h4, h5⟩ | ⟨rfl, rfl, h5⟩
        · refine ⟨hu, hd, h1, fun x hx => ?_, .inl h5⟩
          rcases List.mem_append.mp hx with hx | hx
          · exact h2 x hx
          · cases List.mem_singleton.mp hx
            exact .inl h4
        · refine ⟨hu, hd, h1, fun x hx => ?_, .inr ⟨h5, ⟨.stay, a, true⟩, by simp, rfl, rfl⟩⟩
          rcases List.mem_append.mp hx with hx | hx
          · exact h2 x hx
          · cases List.mem_singleton.mp hx
            exact .inr ⟨rfl, rfl⟩
    · obtain ⟨c1, c2, c3, c4⟩ := calm_moves_streams h3 hm
      refine ⟨c1.trans hu, c2.trans hd, h1, fun x hx => ?_, .inr ⟨c3, y, List.mem_append_left _ hy, hy'⟩⟩
      rcases List.mem_append.mp hx with hx | hx
      · exact h2 x hx
      · exact .inl (c4 x hx)
  kid := by
    intro cap j m l x r m' c born ⟨h1, h2, h3⟩ _ _ _ hk hm
    rcases h2 x (by rw [hk]; simp) with hx | ⟨hx, _⟩
    · obtain ⟨rfl, c2, c3, _⟩ := aloof_moves hx source_null sink_null hm
      refine ⟨rfl, h1, ?_, ?_⟩
      · rw [hk] at h2
        exact mid_ok h2 (.inl c2) fun z hz => .inl (under_ok c3 z hz)
      · rcases h3 with h3 | ⟨h3, y, hy, hy1, hy2⟩
        · exact .inl h3
        · refine .inr ⟨h3, y, ?_, hy1, hy2⟩
          rw [hk] at hy
          simp only [List.mem_append, List.mem_cons] at hy
          rcases hy with hy | rfl | hy
          · simp [hy]
          · rw [hy1] at hm; cases hm
          · simp [hy]
    · rw [hx] at hm
      cases hm
  ends := by
    intro j l x r code ⟨h1, h2, h3⟩ hk hx
    rw [hk] at h2
    refine ⟨h1, drop_ok h2, ?_⟩
    rcases h3 with h3 | ⟨h3, y, hy, hy1, hy2⟩
    · exact .inl h3
    · refine .inr ⟨h3, y, ?_, hy1, hy2⟩
      rw [hk] at hy
      simp only [List.mem_append, List.mem_cons] at hy
      rcases hy with hy | rfl | hy
      · simp [hy]
      · rw [hy1] at hx; cases hx
      · simp [hy]
  answer := by
    intro j code ⟨h1, _, h3⟩ hm hk
    rcases h3 with h3 | ⟨_, y, hy, _, hy2⟩
    · rw [hm] at h3; exact h3
    · rw [hk h1 y hy] at hy2; cases hy2

end

end Verif.Pipes
