/-
Property theorems about settings and defaults: C20-C24.
-/
import Verif.Py.GrammarLemmas
import Verif.Script.DefaultsLemmas
import Verif.Client.AccountProps
import Verif.Client.FileProps
import Verif.Remote.Example

namespace Verif.Script

open Client (Prog direct)
open Remote
open Wire (Packet)

/-! ### C20 -/

/-- C20. Overlaying takes each field from the right operand if it is set there, and from the left one otherwise. -/
theorem C20_fields (a b : Settings) (f : Settings → Option Str)
    (hf : f ∈ [Settings.asUser, Settings.asGroup, Settings.owner, Settings.group, Settings.fileMode, Settings.dirMode, Settings.umask,
      Settings.cwd]) :
    (∀ x, f b = some x → f (a.overlay b) = some x) ∧ (f b = none → f (a.overlay b) = f a) := by
  simp only [List.mem_cons, List.not_mem_nil, or_false] at hf
  rcases hf with rfl | rfl | rfl | rfl | rfl | rfl | rfl | rfl <;>
  · constructor
    · intro x h; simp only [Settings.overlay, pick, h]
    · intro h; simp only [Settings.overlay, pick, h]

theorem pick_assoc (a b c : Option Str) : pick (pick a b) c = pick a (pick b c) := by cases c <;> rfl
theorem pick_none (a : Option Str) : pick none a = a := by cases a <;> rfl
theorem pick_self (a : Option Str) : pick a a = a := by cases a <;> rfl

/-- C20. Empty settings are neutral on both sides. -/
theorem C20_neutral (a : Settings) : a.overlay {} = a ∧ Settings.overlay {} a = a := by
  refine ⟨rfl, ?_⟩
  simp only [Settings.overlay, pick_none]

/-- C20. Overlaying is associative. -/
theorem C20_assoc (a b c : Settings) : (a.overlay b).overlay c = a.overlay (b.overlay c) := by
  simp only [Settings.overlay, pick_assoc]

/-- C20. Overlaying is idempotent. -/
theorem C20_idempotent (a : Settings) : a.overlay a = a := by
  simp only [Settings.overlay, pick_self]

/-- C20. It is right-biased: it does not commute if both sides set a field differently. -/
example : Settings.overlay { cwd := some p!"/" } { cwd := some p!"/tmp" } ≠ Settings.overlay { cwd := some p!"/tmp" } { cwd := some p!"/" } := by
  decide

/-! ### C22 -/

/-- A block of script code: it sends requests, enters defaults contexts, catches exceptions, and ends normally or with an
exception at any point. -/
inductive Block where
  | done
  | raise (e : Exn)
  | request (p : Packet) (next : Except Exn Packet → Block)
  /-- `with defaults(...) as attr: inner(attr)`, then `next` -/
  | defaults (requested : Settings) (inner : Settings → Block) (next : Block)
  /-- `try: inner except Exception as e: handler(e)`, then `next` -/
  | attempt (inner : Block) (handler : Exn → Block) (next : Block)

/-- What the code does. -/
def Block.run : Block → Op Unit
  | .done => Op.pure ()
  | .raise e => Op.raise e
  | .request p next => do
    let r ← Op.call (.req p fun r => .ret (.ok r))
    (next r).run
  | .defaults requested inner next => do
    withDefaults requested fun attr => (inner attr).run
    next.run
  | .attempt inner handler next => do
    Op.tryCatch inner.run fun e => (handler e).run
    next.run

/-- C22. However a block of code with nested defaults contexts ends, and whatever the remote answers: the stack of defaults
is afterwards what it was before. -/
theorem C22_balanced (b : Block) (env : Env) (st : St) (t : Trace) (r : Except Exn Unit) (st' : St)
    (h : Execution b.run env st t r st') : st'.stack = st.stack := by
  suffices Balanced b.run from this _ _ _ _ _ h
  clear h
  induction b with
  | done => exact .pure _
  | raise e => exact .raise _
  | request p next ih => exact .bind (.call _) ih
  | defaults s inner next ih1 ih2 => exact .bind (.withDefaults ih1) fun _ => ih2
  | attempt inner handler next ih1 ih2 ih3 => exact .bind (.tryCatch ih1 ih2) fun _ => ih3

/-- C22. Entering a context can fail; then the block is not executed, and the exception arrives outside. -/
theorem C22_enter_fails (s : Settings) (m : Str) (hm : s.fileMode = some m) (hbad : Py.parseInt 8 m = none) (inner : Settings → Block)
    (env : Env) (st : St) (t : Trace) (r : Except Exn Unit) (st' : St)
    (h : Execution (Block.defaults s inner .done).run env st t r st') : t = [] ∧ (∃ msg, r = .error (.valueError msg)) ∧ st' = st := by
  have hc : canonicalize s = .error (badLiteral m) := by
    simp only [canonicalize, canonicalizeMode, hm, hbad]
  unfold Block.run withDefaults at h
  rw [hc] at h
  rcases execution_bind.mp h with ⟨e, hr, h0⟩ | ⟨t1, t2, a, st1, h1, h2, rfl⟩
  · rcases execution_bind.mp h0 with ⟨e', he, h5⟩ | ⟨t1, t2, a, st1, h1, h2, rfl⟩
    · obtain ⟨rfl, h3, rfl⟩ := execution_ofExcept.mp h5
      cases h3
      cases he
      exact ⟨rfl, ⟨_, hr⟩, rfl⟩
    · obtain ⟨_, h3, _⟩ := execution_ofExcept.mp h1
      cases h3
  · rcases execution_bind.mp h1 with ⟨e', he, h⟩ | ⟨t1', t2', a', st1', h1', h2', _⟩
    · cases he
    · obtain ⟨_, h3, _⟩ := execution_ofExcept.mp h1'
      cases h3

/-- A block that enters two contexts, has an exception in the inner one and catches it in the outer one. -/
example : ∃ b : Block, b = .defaults { owner := some p!"root" } (fun _ =>
    .attempt (.defaults { umask := some p!"22" } (fun _ => .raise .keyError) .done) (fun _ => .done) .done) .done := ⟨_, rfl⟩

/-! ### C21 -/

/-- Nested contexts, the outermost first, around some code. -/
def nested {α : Type} : List Settings → Op α → Op α
  | [], body => body
  | s :: ss, body => withDefaults s fun _ => nested ss body

/-- The value of a field that counts: that of the innermost context that sets it, otherwise that of the base settings. -/
def innermost (base : Option Str) (f : Settings → Option Str) (contexts : List Settings) : Option Str :=
  match contexts.reverse.findSome? f with
  | some x => some x
  | none => base

/-- A mode in canonical form: the octal digits of the number it denotes. -/
def canonicalMode (m : Option Str) : Option Str :=
  m.bind fun m => (Py.parseInt 8 m).map Client.octStr

theorem nested_ok {sys : Sys} {w : World} (hw : w.Sane) {env : Env} (contexts : List Settings) {g c : Settings} {rest : List Settings}
    {st st' : St} {w' : World} {s : Settings} (hb : env.base.overlay g = g) (hst : st.stack = c :: rest) (hr : Resolved w g c)
    (h : exec (direct sys) (nested contexts currentDefaults) env st w = ((.ok s, st'), w')) :
    w' = w ∧ Resolved w (contexts.foldl (fun g q => g.overlay (canonicalModes q)) g) s := by
  induction contexts generalizing g c rest st st' with
  | nil =>
    obtain ⟨rfl, rfl, r, hs⟩ := currentDefaults_ok h
    rw [hst] at hs
    cases hs
    exact ⟨rfl, hr⟩
  | cons q l ih =>
    obtain ⟨q', c', rest', r, st2, h1, h2, h3, h4, rfl⟩ := withDefaults_ok hw h
    rw [hst] at h2
    cases h2
    obtain rfl := canonicalize_ok h1
    exact ih (g := g.overlay (canonicalModes q)) (by rw [← C20_assoc, hb]) rfl (Resolved.step hb hr h3) h4

theorem fold_field (f : Settings → Option Str) (hf : ∀ a b : Settings, f (a.overlay b) = pick (f a) (f b)) (g : Settings) (l : List Settings) :
    f (l.foldl (fun g q => g.overlay (canonicalModes q)) g) = innermost (f g) (fun q => f (canonicalModes q)) l := by
  have : f (l.foldl (fun g q => g.overlay (canonicalModes q)) g) = l.foldl (fun g q => pick g (f (canonicalModes q))) (f g) := by
    induction l generalizing g with
    | nil => rfl
    | cons q l ih => rw [List.foldl_cons, ih, hf, List.foldl_cons]
  rw [this, pick_foldl (fun q => f (canonicalModes q))]
  unfold pick innermost
  cases List.findSome? (fun q => f (canonicalModes q)) l.reverse <;> rfl

/-- C21. Inside nested defaults contexts, the settings in force are, field by field, the innermost value that was given, and
otherwise the connection's base settings: users and groups as canonical names, modes in canonical form, the working directory
as given. -/
theorem C21_defaults (sys : Sys) (w w' : World) (hw : w.Sane) (env : Env) (st st' : St) (contexts : List Settings) (hc : contexts ≠ [])
    (hst : st.stack = [{}]) (s : Settings)
    (h : exec (direct sys) (nested contexts currentDefaults) env st w = ((.ok s, st'), w')) :
    UserValue w (innermost env.base.asUser (·.asUser) contexts) s.asUser
    ∧ GroupValue w (innermost env.base.asGroup (·.asGroup) contexts) s.asGroup
    ∧ UserValue w (innermost env.base.owner (·.owner) contexts) s.owner
    ∧ GroupValue w (innermost env.base.group (·.group) contexts) s.group
    ∧ s.fileMode = innermost env.base.fileMode (fun c => canonicalMode c.fileMode) contexts
    ∧ s.dirMode = innermost env.base.dirMode (fun c => canonicalMode c.dirMode) contexts
    ∧ s.umask = innermost env.base.umask (fun c => canonicalMode c.umask) contexts
    ∧ s.cwd = innermost env.base.cwd (·.cwd) contexts
    ∧ w' = w := by
  cases contexts with
  | nil => exact absurd rfl hc
  | cons q l =>
    obtain ⟨q', c', rest', r, st2, h1, h2, h3, h4, rfl⟩ := withDefaults_ok hw h
    rw [hst] at h2
    cases h2
    obtain rfl := canonicalize_ok h1
    have hr : Resolved w (env.base.overlay (canonicalModes q)) r := h3
    obtain ⟨rfl, hres⟩ := nested_ok hw l (by rw [← C20_assoc, C20_idempotent]) rfl hr h4
    rw [show l.foldl (fun g q => g.overlay (canonicalModes q)) (env.base.overlay (canonicalModes q))
      = (q :: l).foldl (fun g q => g.overlay (canonicalModes q)) env.base from rfl] at hres
    obtain ⟨r1, r2, r3, r4, r5, r6, r7, r8, _, _, _⟩ := hres
    rw [fold_field (·.asUser) fun _ _ => rfl] at r1
    rw [fold_field (·.asGroup) fun _ _ => rfl] at r2
    rw [fold_field (·.owner) fun _ _ => rfl] at r3
    rw [fold_field (·.group) fun _ _ => rfl] at r4
    rw [fold_field (·.fileMode) fun _ _ => rfl] at r5
    rw [fold_field (·.dirMode) fun _ _ => rfl] at r6
    rw [fold_field (·.umask) fun _ _ => rfl] at r7
    rw [fold_field (·.cwd) fun _ _ => rfl] at r8
    exact ⟨r1, r2, r3, r4, r5, r6, r7, r8, rfl⟩

/-- C21. A command is started with the settings that are given explicitly, and otherwise with those in force. -/
theorem C21_run (command : List Str) (input : Option Bytes) (capture check : Bool) (user group umask cwd : Option Str)
    (env : Env) (st st' : St) (s : Settings) (rest : List Settings) (hst : st.stack = s :: rest) (t : Trace) (r : Except Exn Client.Completed)
    (h : Execution (Connection.run command input capture check user group umask cwd) env st t r st') :
    ∃ answer, t = [(.processRun command input capture (user.or s.asUser) (group.or s.asGroup) (umask.or s.umask) (cwd.or s.cwd), answer)] := by
  have hp : ∀ a b : Option Str, pick a b = b.or a := by intro a b; cases b <;> rfl
  unfold Connection.run at h
  have hd : currentDefaults env st = .ret (.ok s, st) := by simp only [currentDefaults, hst]
  rcases execution_bind.mp h with ⟨e, hr, h0⟩ | ⟨t1, t2, a, st1, h1, h2, rfl⟩
  · obtain ⟨_, hr', _⟩ := (execution_ret hd).mp h0
    cases hr'
  · obtain ⟨rfl, ha, rfl⟩ := (execution_ret hd).mp h1
    cases ha
    obtain ⟨h3, _⟩ := execution_call.mp h2
    simp only [hp] at h3
    obtain ⟨answer, rfl, _⟩ := runs_one.mp h3
    exact ⟨answer, rfl⟩

/-- The contexts of an example: the outer one sets the owner by number and a mode, the inner one another mode. -/
def exampleContexts : List Settings := [{ owner := some p!"0", fileMode := some p!"0644" }, { fileMode := some p!"0o755" }]

def exampleEnv : Env :=
  { base := { asUser := some p!"root", asGroup := some p!"root", owner := some p!"root", group := some p!"root", fileMode := some p!"600",
              dirMode := some p!"700", umask := some p!"077", cwd := some p!"/" } }

/-- They can be entered, and this is what is in force inside. -/
example : (exec (direct Example.sys) (nested exampleContexts currentDefaults) exampleEnv { stack := [{}] } Example.world).1.1.toOption
    = some { exampleEnv.base with fileMode := some p!"755" } := by
  decide +kernel

/-! ### C23 -/

theorem octStr_injective {i j : Int} (h : Client.octStr i = Client.octStr j) : i = j := by
  have hd : ∀ m n, Py.natStr 8 m ≠ 111 :: Py.natStr 8 n := by
    intro m n he
    have := Py.natStr_chars (b := 8) (by omega) (by omega) m 111 (by rw [he]; simp)
    omega
  cases i with
  | ofNat m =>
    cases j with
    | ofNat n => rw [Py.natStr_injective (.inl rfl) h]
    | negSucc n => exact absurd h (hd _ _)
  | negSucc m =>
    cases j with
    | ofNat n => exact absurd h.symm (hd _ _)
    | negSucc n =>
      have := Py.natStr_injective (.inl rfl) (List.cons.inj h).2
      rw [Int.negSucc.injEq]; omega

/-- C23. Two modes have the same canonical form exactly if they denote the same number. -/
theorem C23_equal (a b ca cb : Str) (ha : canonicalizeMode (some a) = .ok (some ca)) (hb : canonicalizeMode (some b) = .ok (some cb)) :
    ca = cb ↔ Py.parseInt 8 a = Py.parseInt 8 b := by
  have ha' := canonicalizeMode_ok ha
  have hb' := canonicalizeMode_ok hb
  simp only [Option.bind_some] at ha' hb'
  cases hpa : Py.parseInt 8 a with
  | none => rw [hpa] at ha'; cases ha'
  | some i =>
    cases hpb : Py.parseInt 8 b with
    | none => rw [hpb] at hb'; cases hb'
    | some j =>
      rw [hpa] at ha'
      rw [hpb] at hb'
      cases ha'
      cases hb'
      exact ⟨fun h => by rw [octStr_injective h], fun h => by cases h; rfl⟩

/-- C23. What an octal number looks like: white space, a sign, the prefix `0o` with an underscore, which may all be missing, then digits
between which single underscores may stand. -/
theorem C23_grammar (a : Str) (i : Int) : Py.parseInt 8 a = some i ↔ Py.IsNumber 8 a i := Py.parseInt_iff

example : Py.IsNumber 8 p!" 0o_6_44" 420 := by rw [← C23_grammar]; decide

/-- C23. A mode has a canonical form exactly if it is an octal number. -/
theorem C23_malformed (a : Str) : (∃ e, canonicalizeMode (some a) = .error e) ↔ Py.parseInt 8 a = none := by
  cases h : Py.parseInt 8 a <;> simp [canonicalizeMode, h]

/-- C23. Canonicalisation is idempotent. -/
theorem C23_idempotent (a : Str) (n : Nat) (h : Py.parseInt 8 a = some (n : Int)) :
    ∃ c, canonicalizeMode (some a) = .ok (some c) ∧ canonicalizeMode (some c) = .ok (some c) := by
  refine ⟨Py.natStr 8 n, ?_, ?_⟩
  · simp only [canonicalizeMode, h]; rfl
  · simp only [canonicalizeMode, Py.parseInt_natStr (.inl rfl)]; rfl

/-- C23. The canonical form of a mode is what `stat` reports for an object exactly if the object has that mode. -/
theorem C23_reported (sys : Sys) (w : World) (hw : w.Sane) (path : Str) (fo : Bool) (l : Loc) (n : Node) (hn : NoNul path)
    (hl : lookup w.fs w.cwd path fo = .ok (l, n)) (hf : sys.fault w (.stat path fo) = none)
    (hopen : sys.fault w (.openRead path) = none) (hread : sys.fault w (.read path) = none)
    (a c : Str) (hc : canonicalizeMode (some a) = .ok (some c)) :
    ∃ r, (Client.Connector.stat path fo false).run (direct sys) w = (.ok (some r), w) ∧ (r.mode = c ↔ Py.parseInt 8 a = some (n.perm : Int)) := by
  obtain ⟨r, h1, _, h3, _⟩ := Client.C14_describes sys w hw path fo false l n hn hl hf hopen hread
  refine ⟨r, h1, ?_⟩
  rw [h3]
  have hc' := canonicalizeMode_ok hc
  simp only [Option.bind_some] at hc'
  cases hp : Py.parseInt 8 a with
  | none => rw [hp] at hc'; cases hc'
  | some i =>
    rw [hp] at hc'
    cases hc'
    show Client.octStr (n.perm : Int) = _ ↔ _
    exact ⟨fun h => by rw [octStr_injective h], fun h => by cases h; rfl⟩

theorem parseInt_o (r : Str) (hr : ∀ c ∈ r, 48 ≤ c ∧ c ≤ 57) : Py.parseInt 8 (111 :: r) = none := by
  unfold Py.parseInt
  have hs : Py.strip (111 :: r) = 111 :: r := Py.strip_eq_self (by
    intro c hc
    rcases List.mem_cons.mp hc with rfl | hc
    · decide
    · exact Py.isSpace_digit (hr c hc))
  rw [hs]
  have hd : Py.digitVal 111 = none := by decide
  simp [Py.parseNat, Py.parseDigits, hd]

theorem execution_currentDefaults {env : Env} {st st' : St} {t : Trace} {s : Settings}
    (h : Execution currentDefaults env st t (.ok s) st') : t = [] ∧ st' = st ∧ ∃ rest, st.stack = s :: rest := by
  cases hs : st.stack with
  | nil =>
    obtain ⟨_, h2, _⟩ := (execution_ret (m := currentDefaults) (r0 := .error .indexError) (st0 := st) (by simp only [currentDefaults, hs])).mp h
    cases h2
  | cons c rest =>
    obtain ⟨h1, h2, h3⟩ := (execution_ret (m := currentDefaults) (r0 := .ok c) (st0 := st) (by simp only [currentDefaults, hs])).mp h
    cases h2
    exact ⟨h1, h3, rest, rfl⟩

theorem execution_bind_ok {α β : Type} {m : Op α} {f : α → Op β} {env : Env} {st st' : St} {t : Trace} {b : β}
    (h : Execution (m >>= f) env st t (.ok b) st') :
    ∃ t1 t2 a st1, Execution m env st t1 (.ok a) st1 ∧ Execution (f a) env st1 t2 (.ok b) st' ∧ t = t1 ++ t2 := by
  rcases execution_bind.mp h with ⟨e, he, _⟩ | h
  · cases he
  · exact h

theorem resolveDefaults_masks {s r : Settings} {env : Env} {st st' : St} {t : Trace}
    (h : Execution (resolveDefaults s) env st t (.ok r) st') :
    ∃ c : Settings, (∃ n u, checkMask (c.overlay s).fileMode n = .ok u) ∧ (∃ n u, checkMask (c.overlay s).dirMode n = .ok u)
      ∧ ∃ n u, checkMask (c.overlay s).umask n = .ok u := by
  unfold resolveDefaults at h
  obtain ⟨_, _, c, _, _, h1, _⟩ := execution_bind_ok h
  obtain ⟨_, _, _, _, _, h2, _⟩ := execution_bind_ok h1
  obtain ⟨_, _, _, _, _, h3, _⟩ := execution_bind_ok h2
  obtain ⟨_, _, _, _, _, h4, _⟩ := execution_bind_ok h3
  obtain ⟨_, _, _, _, _, h5, _⟩ := execution_bind_ok h4
  obtain ⟨_, _, u1, _, k1, h6, _⟩ := execution_bind_ok h5
  obtain ⟨_, _, u2, _, k2, h7, _⟩ := execution_bind_ok h6
  obtain ⟨_, _, u3, _, k3, h8, _⟩ := execution_bind_ok h7
  exact ⟨c, ⟨_, u1, (execution_ofExcept.mp k1).2.1.symm⟩, ⟨_, u2, (execution_ofExcept.mp k2).2.1.symm⟩,
    ⟨_, u3, (execution_ofExcept.mp k3).2.1.symm⟩⟩

/-- C23. A context with a mode that is malformed or negative cannot be entered, whatever the remote answers: an exception
is raised instead, and the block is not executed. -/
theorem C23_rejected {α : Type} (s : Settings) (m : Str) (hm : s.fileMode = some m ∨ s.dirMode = some m ∨ s.umask = some m)
    (hbad : ∀ n : Nat, Py.parseInt 8 m ≠ some (n : Int)) (body : Settings → Op α) (env : Env) (st st' : St) (t : Trace) (r : Except Exn α)
    (h : Execution (withDefaults s body) env st t r st') :
    (∃ e, r = .error e) ∧ ∀ body' : Settings → Op α, Execution (withDefaults s body') env st t r st' := by
  have hneg : ∀ {x : Str}, (Py.parseInt 8 m).map Client.octStr = some x → Py.parseInt 8 x = none := by
    intro x hx
    cases hp : Py.parseInt 8 m with
    | none => rw [hp] at hx; cases hx
    | some i =>
      rw [hp] at hx
      cases hx
      cases i with
      | ofNat n => exact absurd hp (hbad n)
      | negSucc n => exact parseInt_o _ (Py.natStr_chars (b := 8) (by omega) (by omega) _)
  have key : ∀ {q' b r : Settings} {st st' : St} {t : Trace}, canonicalize s = .ok q' →
      ¬ Execution (resolveDefaults (b.overlay q')) env st t (.ok r) st' := by
    intro q' b r st st' t hq he
    obtain ⟨c, ⟨_, _, k1⟩, ⟨_, _, k2⟩, ⟨_, _, k3⟩⟩ := resolveDefaults_masks he
    obtain ⟨x1, i1, e1, p1⟩ := checkMask_ok k1
    obtain ⟨x2, i2, e2, p2⟩ := checkMask_ok k2
    obtain ⟨x3, i3, e3, p3⟩ := checkMask_ok k3
    obtain rfl := canonicalize_ok hq
    have hdef : ∃ i, Py.parseInt 8 m = some i := by
      cases hp : Py.parseInt 8 m with
      | some i => exact ⟨i, rfl⟩
      | none =>
        exfalso
        unfold canonicalize at hq
        rcases hm with hm | hm | hm
        · simp only [canonicalizeMode, hm, hp] at hq; cases hq
        · simp only [hm, canonicalizeMode, hp] at hq
          split at hq <;> cases hq
        · simp only [hm, canonicalizeMode, hp] at hq
          split at hq
          · cases hq
          · split at hq <;> cases hq
    obtain ⟨i, hi⟩ := hdef
    have hx := hneg (show (Py.parseInt 8 m).map Client.octStr = some (Client.octStr i) by rw [hi]; rfl)
    rcases hm with hm | hm | hm
    · simp only [Settings.overlay, pick, hm, Option.bind_some, hi, Option.map_some] at e1
      cases e1; rw [hx] at p1; cases p1
    · simp only [Settings.overlay, pick, hm, Option.bind_some, hi, Option.map_some] at e2
      cases e2; rw [hx] at p2; cases p2
    · simp only [Settings.overlay, pick, hm, Option.bind_some, hi, Option.map_some] at e3
      cases e3; rw [hx] at p3; cases p3
  unfold withDefaults at h ⊢
  rcases execution_bind.mp h with ⟨e, rfl, h0⟩ | ⟨t1, t2, q', st1, h1, h2, rfl⟩
  · exact ⟨⟨e, rfl⟩, fun body' => execution_bind.mpr (.inl ⟨e, rfl, h0⟩)⟩
  have hq := (execution_ofExcept.mp h1).2.1.symm
  rcases execution_bind.mp h2 with ⟨e, rfl, h0⟩ | ⟨t3, t4, env', st2, h3, h4, rfl⟩
  · exact ⟨⟨e, rfl⟩, fun body' => execution_bind.mpr (.inr ⟨_, _, _, _, h1, execution_bind.mpr (.inl ⟨e, rfl, h0⟩), rfl⟩)⟩
  rcases execution_bind.mp h4 with ⟨e, rfl, h0⟩ | ⟨t5, t6, cur, st3, h5, h6, rfl⟩
  · exact ⟨⟨e, rfl⟩, fun body' => execution_bind.mpr (.inr ⟨_, _, _, _, h1, execution_bind.mpr (.inr ⟨_, _, _, _, h3,
      execution_bind.mpr (.inl ⟨e, rfl, h0⟩), rfl⟩), rfl⟩)⟩
  rcases execution_bind.mp h6 with ⟨e, rfl, h0⟩ | ⟨t7, t8, res, st4, h7, h8, rfl⟩
  · exact ⟨⟨e, rfl⟩, fun body' => execution_bind.mpr (.inr ⟨_, _, _, _, h1, execution_bind.mpr (.inr ⟨_, _, _, _, h3,
      execution_bind.mpr (.inr ⟨_, _, _, _, h5, execution_bind.mpr (.inl ⟨e, rfl, h0⟩), rfl⟩), rfl⟩), rfl⟩)⟩
  · exact absurd h7 (key hq)

/-- Modes that denote the same number, one that is malformed, and a negative one. -/
example : canonicalizeMode (some p!"0644") = .ok (some p!"644") ∧ canonicalizeMode (some p!" 0o6_44 ") = .ok (some p!"644")
    ∧ Py.parseInt 8 p!"rw-r--r--" = none ∧ Py.parseInt 8 p!"-5" = some (-5) := ⟨rfl, rfl, by decide, by decide⟩

/-! ### C24 -/

/-- `InventoryWrapper.base_remote_settings`, inventory_wrapper.py:242-263. An inventory can define another one. -/
def baseRemoteSettings : Settings :=
  { asUser := some p!"root", asGroup := some p!"root", owner := some p!"root", group := some p!"root", fileMode := some p!"600",
    dirMode := some p!"700", umask := some p!"077", cwd := some p!"/tmp" }

/-- A mode as `stat` prints it. -/
def CanonicalMode (m : Option Str) : Prop := ∃ n : Nat, m = some (Py.natStr 8 n)

/-- The property for the settings `base` of an inventory: after connecting, the owner and group are names of accounts that
exist, and the modes are in canonical form. -/
def C24_Statement (base : Settings) : Prop :=
  ∀ (sys : Sys) (w w' : World) (env : Env) (st st' : St) (s : Settings), w.Sane →
    exec (direct sys) (resolveIdentity base) env st w = ((.ok s, st'), w') →
      (∃ e ∈ w.users, s.owner = some e.name ∧ s.asUser = some e.name) ∧ (∃ e ∈ w.groups, s.group = some e.name ∧ s.asGroup = some e.name)
      ∧ CanonicalMode s.fileMode ∧ CanonicalMode s.dirMode

theorem resolveSelf_ok {sys : Sys} {w w' : World} (hw : w.Sane) {y : Str}
    (h : (Client.Connector.resolveUser none).run (direct sys) w = (.ok y, w')) : w' = w ∧ ∃ e ∈ w.users, y = e.name := by
  rw [Client.resolveUser_run hw sys (u := none) (Client.noNul_natStr _)] at h
  cases hf : Client.findUser w ((none : Option Str).getD (Py.natStr 10 w.uid)) with
  | none => rw [hf] at h; cases h
  | some e =>
    rw [hf] at h
    cases h
    obtain ⟨_, _, _, hm⟩ := Client.find_name_self (Client.findUser_iff.mp hf)
    exact ⟨rfl, e, hm, rfl⟩

theorem resolveSelfGroup_ok {sys : Sys} {w w' : World} (hw : w.Sane) {y : Str}
    (h : (Client.Connector.resolveGroup none).run (direct sys) w = (.ok y, w')) : w' = w ∧ ∃ e ∈ w.groups, y = e.name := by
  rw [Client.resolveGroup_run hw sys (u := none) (Client.noNul_natStr _)] at h
  cases hf : Client.findGroup w ((none : Option Str).getD (Py.natStr 10 w.gid)) with
  | none => rw [hf] at h; cases h
  | some e =>
    rw [hf] at h
    cases h
    obtain ⟨_, _, _, hm⟩ := Client.find_gname_self (Client.findGroup_iff.mp hf)
    exact ⟨rfl, e, hm, rfl⟩

/-- C24, for settings whose modes are canonical, such as the default ones. What is missing: other settings. -/
theorem C24_canonical_partial (base : Settings) (h1 : CanonicalMode base.fileMode) (h2 : CanonicalMode base.dirMode) : C24_Statement base := by
  intro sys w w' env st st' s hw h
  unfold resolveIdentity at h
  obtain ⟨u, st1, w1, k1, k2⟩ := exec_bind_ok.mp h
  obtain ⟨g, st2, w2, k3, k4⟩ := exec_bind_ok.mp k2
  cases k4
  simp only [Connection.resolveUser, exec_call] at k1
  simp only [Connection.resolveGroup, exec_call] at k3
  cases hr : (Client.Connector.resolveUser none).run (direct sys) w with
  | mk a b =>
    rw [hr] at k1
    cases k1
    obtain ⟨rfl, e, he, rfl⟩ := resolveSelf_ok hw hr
    cases hr2 : (Client.Connector.resolveGroup none).run (direct sys) b with
    | mk a' b' =>
      rw [hr2] at k3
      cases k3
      obtain ⟨rfl, e', he', rfl⟩ := resolveSelfGroup_ok hw hr2
      exact ⟨⟨e, he, rfl, rfl⟩, ⟨e', he', rfl, rfl⟩, h1, h2⟩

/-- C24. The default settings meet it. -/
theorem C24_default_partial : C24_Statement baseRemoteSettings :=
  C24_canonical_partial _ ⟨0o600, by decide⟩ ⟨0o700, by decide⟩

/-- C24. An inventory with `file_mode="0600"` refutes the property for all settings. -/
theorem C24_refuted : ¬ ∀ base, C24_Statement base := by
  intro h
  have := h { baseRemoteSettings with fileMode := some p!"0600" } Example.sys Example.world Example.world exampleEnv { stack := [{}] }
    { stack := [{}] } { baseRemoteSettings with fileMode := some p!"0600" } Example.world_sane (by
      unfold resolveIdentity
      rfl)
  obtain ⟨_, _, ⟨n, hn⟩, _⟩ := this
  have hn' : (some p!"0600" : Option Str) = some (Py.natStr 8 n) := hn
  rw [Option.some.injEq] at hn'
  have hp : Py.parseInt 8 p!"0600" = some (384 : Int) := by decide
  rw [hn', Py.parseInt_natStr (.inl rfl)] at hp
  have : n = 384 := by
    have h2 := Option.some.inj hp
    omega
  subst this
  exact absurd hn' (by decide)

/-- C24. With such an inventory, no object's reported mode ever equals the mode that is in force. -/
theorem C24_never_equal_refuted (n : Nat) : Py.natStr 8 n ≠ p!"0600" := by
  intro hn
  have hp : Py.parseInt 8 p!"0600" = some (384 : Int) := by decide
  rw [← hn, Py.parseInt_natStr (.inl rfl)] at hp
  have : n = 384 := by
    have h2 := Option.some.inj hp
    omega
  subst this
  exact absurd hn (by decide)

end Verif.Script
