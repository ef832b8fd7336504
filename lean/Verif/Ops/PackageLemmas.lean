/-
Lemmas about package operations.
-/
import Verif.Ops.PackageSpec
import Verif.Ops.RunLemmas
import Verif.Ops.SortLemmas
import Verif.Ops.RepeatLemmas

namespace Verif.Ops

open Script Remote
open Client (Prog direct lostConnection Completed)
open Wire (Packet)

/-! ### Package managers -/

theorem bytesContain_iff {needle : Bytes} : ∀ {hay : Bytes}, bytesContain hay needle = true ↔ ∃ a b, hay = a ++ needle ++ b
  | [] => by
    unfold bytesContain
    simp only [Bool.or_false, List.isPrefixOf_iff_prefix]
    constructor
    · rintro ⟨b, hb⟩; exact ⟨[], b, by simpa using hb.symm⟩
    · rintro ⟨a, b, h⟩
      have := List.append_eq_nil_iff.mp h.symm
      have := List.append_eq_nil_iff.mp this.1
      rw [this.2]; exact ⟨[], rfl⟩
  | x :: t => by
    unfold bytesContain
    simp only [Bool.or_eq_true, List.isPrefixOf_iff_prefix]
    rw [bytesContain_iff (hay := t)]
    constructor
    · rintro (⟨b, hb⟩ | ⟨a, b, h⟩)
      · exact ⟨[], b, by simpa using hb.symm⟩
      · exact ⟨x :: a, b, by rw [h]; rfl⟩
    · rintro ⟨a, b, h⟩
      cases a with
      | nil => exact .inl ⟨b, by simpa using h.symm⟩
      | cons y a =>
        simp only [List.cons_append, List.cons.injEq] at h
        exact .inr ⟨a, b, h.2⟩

/-- What a package manager consists of. `ask` is what the answer to the question whether a package is installed means. -/
structure Queries (m : Manager) (query install remove : Str → List Str) (yes : Option Bytes → Int → Prop) where
  check : Bool
  told : Completed → Bool
  isInstalled : ∀ p, m.isInstalled p = (do let ret ← Connection.run (query p) (check := check); return told ret)
  installs : ∀ p, m.install p = runCommand (install p)
  uninstalls : ∀ p, m.uninstall p = runCommand (remove p)
  told_iff : ∀ out err code, (check = true → code = 0) → (told { stdout := out, stderr := err, returncode := code } = true ↔ yes out code)
  yes_zero : ∀ out code, yes out code → check = true → code = 0
  inj : ∀ p q, query p = query q → p = q
  notInstall : ∀ p q, query p ≠ install q
  notRemove : ∀ p q, query p ≠ remove q

section
variable {m : Manager} {query install remove : Str → List Str} {yes : Option Bytes → Int → Prop}

theorem told_contains (needle : Bytes) (out : Option Bytes) :
    out.any (bytesContain · needle) = true ↔ ∃ a b, out = some (a ++ needle ++ b) := by
  cases out with
  | none => simp
  | some o =>
    simp only [Option.any_some, bytesContain_iff, Option.some.injEq]

theorem Backend.queries (h : Backend m query install remove yes) : Nonempty (Queries m query install remove yes) := by
  cases h with
  | pacman opts =>
    refine ⟨{ check := false, told := fun ret => ret.returncode == 0, isInstalled := fun _ => rfl, installs := fun _ => rfl,
              uninstalls := fun _ => rfl, told_iff := ?_, yes_zero := ?_, inj := ?_, notInstall := ?_, notRemove := ?_ }⟩
    · intro out err code _; simp
    · intro _ _ _ h; cases h
    · intro p q h; simpa using h
    · intro p q h; simp at h
    · intro p q h; simp at h
  | portage opts oneshot =>
    refine ⟨{ check := true, told := fun ret => ret.stdout.any (bytesContain · b!"was built with the following"),
              isInstalled := fun _ => rfl, installs := fun p => ?_,
              uninstalls := fun _ => rfl, told_iff := ?_, yes_zero := ?_, inj := ?_, notInstall := ?_, notRemove := ?_ }⟩
    · show runCommand _ = _
      simp only [List.append_assoc]
    · intro out err code hc
      rw [told_contains]
      exact ⟨fun h => ⟨hc rfl, h⟩, fun h => h.2⟩
    · intro _ _ h _; exact h.1
    · intro p q h; simpa using h
    · intro p q h; simp at h
    · intro p q h; simp at h
  | apt opts =>
    refine ⟨{ check := true, told := fun ret => ret.stdout.any (bytesContain · b!"ok installed"),
              isInstalled := fun _ => rfl, installs := fun _ => rfl,
              uninstalls := fun _ => rfl, told_iff := ?_, yes_zero := ?_, inj := ?_, notInstall := ?_, notRemove := ?_ }⟩
    · intro out err code hc
      rw [told_contains]
      exact ⟨fun h => ⟨hc rfl, h⟩, fun h => h.2⟩
    · intro _ _ h _; exact h.1
    · intro p q h; simpa using h
    · intro p q h; simp at h
    · intro p q h; simp at h

/-! ### Requests of package operations -/

/-- The part of the execution that asks. -/
def Told (Y : Queries m query install remove yes) (a : Except Exn Packet) : Prop :=
  (completed Y.check a).map Y.told = .ok true

theorem commandsOf_cons (pk : Packet) (a : Except Exn Packet) (t : Trace) : commandsOf ((pk, a) :: t) = argvOf pk :: commandsOf t := by
  cases pk <;> rfl

theorem commandsOf_append (a b : Trace) : commandsOf (a ++ b) = commandsOf a ++ commandsOf b := by
  unfold commandsOf; simp

theorem mem_commandsOf {pk : Packet} {a : Except Exn Packet} : ∀ {t : Trace}, (pk, a) ∈ t → argvOf pk ∈ commandsOf t
  | (pk', a') :: t, h => by
    rw [commandsOf_cons]
    rcases List.mem_cons.mp h with h | h
    · cases h; simp
    · exact List.mem_cons_of_mem _ (mem_commandsOf h)

theorem said_iff (Y : Queries m query install remove yes) {t : Trace} {name : Str} :
    SaidInstalled query yes t name ↔ ∃ pk a, (pk, a) ∈ t ∧ argvOf pk = some (query name) ∧ Told Y a := by
  constructor
  · rintro ⟨stdin, capture, user, group, umask, cwd, out, err, code, h, hy⟩
    refine ⟨_, _, h, rfl, ?_⟩
    have hz := Y.yes_zero _ _ hy
    unfold Told completed
    have : (Y.check && code != 0) = false := by
      cases hc : Y.check with
      | false => rfl
      | true => simp [hz hc]
    simp only [this]
    show Except.ok (Y.told _) = .ok true
    rw [(Y.told_iff out err code hz).mpr hy]
  · rintro ⟨pk, a, h, hpk, ht⟩
    unfold argvOf at hpk
    split at hpk
    · next command stdin capture user group umask cwd =>
      cases hpk
      unfold Told completed at ht
      split at ht
      · cases ht
      · cases ht
      · next out err code =>
        by_cases hc : (Y.check && code != 0) = true
        · rw [if_pos hc] at ht; cases ht
        · rw [if_neg hc] at ht
          refine ⟨stdin, capture, user, group, umask, cwd, out, err, code, h, (Y.told_iff out err code ?_).mp (Except.ok.inj ht)⟩
          intro hch
          rw [hch] at hc
          simpa using hc
      · cases ht
    · cases hpk

theorem asks_isInstalled (Y : Queries m query install remove yes) (p : Str) :
    Asks (m.isInstalled p) (query p) (fun a => (completed Y.check a).map Y.told) := by
  rw [Y.isInstalled]
  exact (asks_run _ _).map _

theorem queryInstalled_exec (Y : Queries m query install remove yes) {env : Env} : ∀ {packages : List Str} {st st' : St} {t : Trace} {r : Except Exn (List Str)},
    Execution (queryInstalled m packages) env st t r st' → st' = st ∧ ∃ asked, asked <+: packages ∧ commandsOf t = asked.map (fun p => some (query p))
      ∧ ∀ l, r = .ok l → asked = packages ∧ (∀ p, p ∈ l ↔ ∃ pk a, (pk, a) ∈ t ∧ argvOf pk = some (query p) ∧ Told Y a) ∧ ∀ p ∈ l, p ∈ packages
  | [], st, st', t, r, h => by
    obtain ⟨rfl, rfl, rfl⟩ := execution_pure.mp h
    refine ⟨rfl, [], List.nil_prefix, rfl, ?_⟩
    rintro l ⟨⟩
    exact ⟨rfl, by simp, by simp⟩
  | p :: ps, st, st', t, r, h => by
    unfold queryInstalled at h
    rcases execution_bind.mp h with ⟨e, rfl, h1⟩ | ⟨t1, t2, i, st1, h1, h2, rfl⟩
    · obtain ⟨rfl, h3⟩ := asks_isInstalled Y p _ _ _ _ _ h1
      rcases h3 with ⟨rfl, _⟩ | ⟨pk, a, rfl, h4, _⟩
      · exact ⟨rfl, [], List.nil_prefix, rfl, fun _ h => (by cases h)⟩
      · refine ⟨rfl, [p], ⟨ps, rfl⟩, ?_, fun _ h => (by cases h)⟩
        rw [commandsOf_cons, h4]; rfl
    · obtain ⟨rfl, h3⟩ := asks_isInstalled Y p _ _ _ _ _ h1
      rcases h3 with ⟨_, e, h4⟩ | ⟨pk, a, rfl, h4, h5⟩
      · cases h4
      · rcases execution_bind.mp h2 with ⟨e, rfl, h6⟩ | ⟨t3, t4, l, st2, h6, h7, rfl⟩
        · obtain ⟨rfl, asked, k1, k2, k3⟩ := queryInstalled_exec Y h6
          refine ⟨rfl, p :: asked, (List.prefix_cons_inj p).mpr k1, ?_, fun _ h => (by cases h)⟩
          simp only [List.cons_append, List.nil_append]
          rw [commandsOf_cons, h4, k2]; rfl
        · obtain ⟨rfl, asked, k1, k2, k3⟩ := queryInstalled_exec Y h6
          obtain ⟨rfl, rfl, rfl⟩ := execution_pure.mp h7
          obtain ⟨rfl, k4, k5⟩ := k3 l rfl
          refine ⟨rfl, p :: asked, List.prefix_rfl, ?_, ?_⟩
          · simp only [List.cons_append, List.nil_append, List.append_nil]
            rw [commandsOf_cons, h4, k2]; rfl
          · intro l' hl'
            replace hl' := (Except.ok.inj hl').symm
            subst hl'
            refine ⟨rfl, ?_, ?_⟩
            · intro q
              simp only [List.cons_append, List.nil_append, List.append_nil, List.mem_cons, Prod.mk.injEq]
              have hi : (i = true) ↔ Told Y a := by
                dsimp only at h5
                unfold Told
                rw [← h5]
                simp
              constructor
              · intro hq
                cases hb : i with
                | true =>
                  rw [hb] at hq
                  rcases List.mem_cons.mp hq with rfl | hq
                  · exact ⟨pk, a, .inl ⟨rfl, rfl⟩, h4, hi.mp hb⟩
                  · obtain ⟨pk', a', h1', h2', h3'⟩ := (k4 q).mp hq
                    exact ⟨pk', a', .inr h1', h2', h3'⟩
                | false =>
                  rw [hb] at hq
                  obtain ⟨pk', a', h1', h2', h3'⟩ := (k4 q).mp hq
                  exact ⟨pk', a', .inr h1', h2', h3'⟩
              · rintro ⟨pk', a', ⟨rfl, rfl⟩ | hm, h2', h3'⟩
                · rw [h4] at h2'
                  have := Y.inj _ _ (Option.some.inj h2')
                  subst this
                  rw [hi.mpr h3']
                  simp
                · have := (k4 q).mpr ⟨pk', a', hm, h2', h3'⟩
                  cases i <;> simp [this]
            · intro q hq
              cases hb : i with
              | true =>
                rw [hb] at hq
                rcases List.mem_cons.mp hq with rfl | hq
                · simp
                · exact List.mem_cons_of_mem _ (k5 q hq)
              | false =>
                rw [hb] at hq
                exact List.mem_cons_of_mem _ (k5 q hq)

theorem forEach_exec {f : Str → Op Unit} {cmd : Str → List Str} (hf : ∀ p, f p = runCommand (cmd p)) {env : Env} :
    ∀ {ps : List Str} {st st' : St} {t : Trace} {r : Except Exn Unit},
    Execution (forEach f ps) env st t r st' → st' = st ∧ ∃ done, done <+: ps ∧ commandsOf t = done.map (fun p => some (cmd p))
      ∧ (∀ x, r = .ok x → done = ps)
  | [], st, st', t, r, h => by
    obtain ⟨rfl, rfl, rfl⟩ := execution_pure.mp h
    exact ⟨rfl, [], List.nil_prefix, rfl, fun _ _ => rfl⟩
  | p :: ps, st, st', t, r, h => by
    unfold forEach at h
    rw [hf] at h
    rcases execution_bind.mp h with ⟨e, rfl, h1⟩ | ⟨t1, t2, i, st1, h1, h2, rfl⟩
    · obtain ⟨rfl, h3⟩ := asks_runCommand _ _ _ _ _ _ h1
      rcases h3 with ⟨rfl, _⟩ | ⟨pk, a, rfl, h4, _⟩
      · exact ⟨rfl, [], List.nil_prefix, rfl, fun _ h => (by cases h)⟩
      · refine ⟨rfl, [p], ⟨ps, rfl⟩, ?_, fun _ h => (by cases h)⟩
        rw [commandsOf_cons, h4]; rfl
    · obtain ⟨rfl, h3⟩ := asks_runCommand _ _ _ _ _ _ h1
      rcases h3 with ⟨_, e, h4⟩ | ⟨pk, a, rfl, h4, h5⟩
      · cases h4
      · obtain ⟨rfl, asked, k1, k2, k3⟩ := forEach_exec hf h2
        refine ⟨rfl, p :: asked, (List.prefix_cons_inj p).mpr k1, ?_, fun x hx => ?_⟩
        · simp only [List.cons_append, List.nil_append]
          rw [commandsOf_cons, h4, k2]; rfl
        · rw [k3 x hx]

/-! ### The whole operation -/

theorem eq_installed (a b : List Str) : Dict.eq (installedState a) (installedState b) = (a == b) := by
  simp [Dict.eq, installedState, Dict.within, eqAt, Dict.get, Val.eq]

/-- What is to be done, given which packages are installed. -/
def todoOf (packages installed : List Str) (present : Bool) : List Str :=
  if present then (distinct packages).filter fun p => !installed.contains p else distinct installed

theorem mem_todoOf {packages installed : List Str} (hsub : ∀ p ∈ installed, p ∈ packages) {present : Bool} {p : Str} :
    p ∈ todoOf packages installed present ↔ p ∈ packages ∧ if present then p ∉ installed else p ∈ installed := by
  unfold todoOf
  cases present with
  | true => simp [mem_distinct]
  | false =>
    simp only [Bool.false_eq_true, if_false, mem_distinct]
    exact ⟨fun h => ⟨hsub p h, h⟩, fun h => h.2⟩

theorem todoOf_nodup (packages installed : List Str) (present : Bool) : (todoOf packages installed present).Nodup := by
  unfold todoOf
  split
  · exact (distinct_nodup packages).filter _
  · exact distinct_nodup _

/-- The states are equal if and only if there is nothing to do (with duplicates in the list they may differ nevertheless). -/
theorem installed_eq {packages installed : List Str} (hsub : ∀ p ∈ installed, p ∈ packages) {present : Bool} :
    (Dict.eq (installedState (sorted (distinct installed))) (installedState (if present then sorted packages else [])) = true
      → todoOf packages installed present = [])
    ∧ ((present = true → packages.Nodup) → todoOf packages installed present = [] →
        Dict.eq (installedState (sorted (distinct installed))) (installedState (if present then sorted packages else [])) = true) := by
  rw [eq_installed, beq_iff_eq]
  cases present with
  | true =>
    simp only [if_true]
    constructor
    · intro h
      have hm := mem_of_sorted_eq h
      apply List.eq_nil_iff_forall_not_mem.mpr
      intro p hp
      obtain ⟨h1, h2⟩ := (mem_todoOf hsub).mp hp
      exact h2 (mem_distinct.mp ((hm p).mpr h1))
    · intro hn h
      refine sorted_eq_of_mem (distinct_nodup _) (hn trivial) ?_
      intro p
      rw [mem_distinct]
      refine ⟨hsub p, fun hp => ?_⟩
      refine Classical.byContradiction fun hni => ?_
      have : p ∈ todoOf packages installed true := (mem_todoOf hsub).mpr ⟨hp, hni⟩
      rw [h] at this
      cases this
  | false =>
    simp only [Bool.false_eq_true, if_false, sorted_nil_iff, todoOf]
    exact ⟨fun h => h, fun _ h => h⟩

/-- The end of an operation, as requests. -/
theorem settle_exec {action : Op Unit} {env : Env} {st st' : St} {t : Trace} {r : Except Exn OpResult} {i f : Dict}
    (hs : States st i f) (h : Execution (settle (Op.pure ()) action) env st t r st') :
    (t = [] ∧ (i.eq f = true ∨ env.dry = true) ∧ r = .ok { success := true, changed := !i.eq f, initial := i, final := f }
      ∧ st' = st.show { success := true, changed := !i.eq f, initial := i, final := f })
    ∨ (i.eq f = false ∧ env.dry = false ∧ ∃ r1 st1, Execution action env st t r1 st1
        ∧ ((∃ e, r1 = .error e ∧ r = .error e ∧ st' = st1)
          ∨ (r1 = .ok () ∧ ∀ (_ : States st1 i f), r = .ok { success := true, changed := true, initial := i, final := f }
            ∧ st' = st1.show { success := true, changed := true, initial := i, final := f }))) := by
  have hsucc : ∀ {st0 : St} {t : Trace} {r : Except Exn OpResult} {st' : St}, States st0 i f → Execution success env st0 t r st' →
      t = [] ∧ r = .ok { success := true, changed := !i.eq f, initial := i, final := f } ∧ st' = st0.show { success := true, changed := !i.eq f, initial := i, final := f } := by
    intro st0 t r st' hs0 h0
    simp only [Execution, Script.success, hs0.initial, hs0.final, hs0.printable, Bool.not_true, Bool.and_false, Bool.false_eq_true, if_false,
      runs_ret, Prod.mk.injEq] at h0
    exact ⟨h0.1, h0.2.1, h0.2.2⟩
  unfold settle at h
  have hu : ∀ {t : Trace} {r : Except Exn Bool} {st' : St}, Execution (unchanged false) env st t r st' → t = [] ∧ r = .ok (i.eq f) ∧ st' = st := by
    intro t r st' h0
    simp only [Execution, unchanged, hs.initial, hs.final, runs_ret, Prod.mk.injEq, Bool.not_false, if_true] at h0
    exact ⟨h0.1, h0.2.1, h0.2.2⟩
  rcases execution_bind.mp h with ⟨e, rfl, h1⟩ | ⟨t1, t2, u, st1, h1, h2, rfl⟩
  · exact absurd (hu h1).2.1 (by simp)
  · obtain ⟨rfl, h3, rfl⟩ := hu h1
    replace h3 := Except.ok.inj h3
    subst h3
    cases hif : i.eq f with
    | true =>
      rw [hif] at h2
      simp only [if_true] at h2
      obtain ⟨rfl, h4, rfl⟩ := hsucc hs h2
      refine .inl ⟨rfl, .inl rfl, ?_, by rw [hif]⟩
      rw [h4, hif]
    | false =>
      rw [hif] at h2
      simp only [Bool.false_eq_true, if_false] at h2
      rcases execution_bind.mp h2 with ⟨e, rfl, h4⟩ | ⟨t3, t4, _, st2, h4, h5, rfl⟩
      · obtain ⟨_, h4, _⟩ := execution_pure.mp h4
        cases h4
      · obtain ⟨rfl, _, rfl⟩ := execution_pure.mp h4
        have hd : ∀ {t : Trace} {r : Except Exn Unit} {st' : St}, Execution (unlessDry action) env st2 t r st' →
            if env.dry then t = [] ∧ r = .ok () ∧ st' = st2 else Execution action env st2 t r st' := by
          intro t r st' h0
          unfold unlessDry at h0
          rcases execution_bind.mp h0 with ⟨e, rfl, h1⟩ | ⟨t1, t2, d, st1, h1, h2, rfl⟩
          · simp only [Execution, dry, runs_ret, Prod.mk.injEq] at h1
            exact absurd h1.2.1 (by simp)
          · simp only [Execution, dry, runs_ret, Prod.mk.injEq] at h1
            obtain ⟨rfl, h3, rfl⟩ := h1
            replace h3 := Except.ok.inj h3
            subst h3
            cases hdry : env.dry with
            | true => rw [hdry] at h2; exact execution_pure.mp h2
            | false => rw [hdry] at h2; exact h2
        rcases execution_bind.mp h5 with ⟨e, rfl, h6⟩ | ⟨t5, t6, _, st3, h6, h7, rfl⟩
        · have h8 := hd h6
          cases hdry : env.dry with
          | true => rw [hdry] at h8; exact absurd h8.2.1 (by simp)
          | false =>
            rw [hdry] at h8
            refine .inr ⟨rfl, rfl, .error e, st', ?_, .inl ⟨e, rfl, rfl, rfl⟩⟩
            simpa using h8
        · have h8 := hd h6
          cases hdry : env.dry with
          | true =>
            rw [hdry] at h8
            obtain ⟨rfl, _, rfl⟩ := h8
            obtain ⟨rfl, h9, rfl⟩ := hsucc hs h7
            refine .inl ⟨rfl, .inr rfl, ?_, by rw [hif]⟩
            rw [h9, hif]
          | false =>
            rw [hdry] at h8
            simp only [Bool.false_eq_true, if_false] at h8
            have ht6 : t6 = [] := by
              rcases success_cases env st3 with ⟨e, h8⟩ | ⟨_, _, _, _, h8⟩ <;> exact ((execution_ret h8).mp h7).1
            subst ht6
            refine .inr ⟨rfl, rfl, .ok (), st3, by simpa using h8, .inr ⟨rfl, fun hs3 => ?_⟩⟩
            obtain ⟨_, h9, rfl⟩ := hsucc hs3 h7
            exact ⟨by rw [h9, hif]; rfl, by rw [hif]; rfl⟩

theorem initialState_exec {d : Dict} {env : Env} {st st' : St} {t : Trace} {r : Except Exn Unit} (hn : st.op.hasNested = false)
    (hi : st.op.initial = none) (h : Execution (initialState d) env st t r st') :
    t = [] ∧ r = .ok () ∧ st' = { st with op := { st.op with initial := some d } } := by
  unfold Execution Script.initialState at h
  simp only [hi, hn, Bool.false_eq_true, if_false] at h
  simpa [hn] using runs_ret.mp h

theorem finalState_exec {d : Dict} {env : Env} {st st' : St} {t : Trace} {r : Except Exn Unit} (hn : st.op.hasNested = false)
    (hi : st.op.final = none) (h : Execution (finalState d) env st t r st') :
    t = [] ∧ r = .ok () ∧ st' = { st with op := { st.op with final := some d } } := by
  unfold Execution Script.finalState at h
  simp only [hi, hn, Bool.false_eq_true, if_false] at h
  simpa [hn] using runs_ret.mp h

theorem genericPackage_exec (Y : Queries m query install remove yes) {order : List Str → List Str} {packages : List Str} {present : Bool}
    {env : Env} {st st' : St} {t : Trace} {r : Except Exn OpResult} (hn : st.op.hasNested = false) (hi : st.op.initial = none) (hf : st.op.final = none)
    (h : Execution (genericPackage order m packages present) env st t r st') :
    ∃ t1 t2 asked done, t = t1 ++ t2 ∧ asked <+: packages ∧ commandsOf t1 = asked.map (fun p => some (query p))
      ∧ commandsOf t2 = done.map (fun p => some ((if present then install else remove) p))
      ∧ (done ≠ [] → asked = packages ∧ env.dry = false)
      ∧ ((∃ e, r = .error e) ∧ done = [] ∨ asked = packages ∧ ∃ installed, (∀ p ∈ installed, p ∈ packages) ∧ (∀ p, p ∈ installed ↔ SaidInstalled query yes t1 p)
          ∧ done <+: order (todoOf packages installed present)
          ∧ ∀ res, r = .ok res → res.success = true
            ∧ res.changed = !Dict.eq (installedState (sorted (distinct installed))) (installedState (if present then sorted packages else []))
            ∧ (env.dry = false → res.changed = true → done = order (todoOf packages installed present))) := by
  unfold genericPackage at h
  rcases execution_bind.mp h with ⟨e, rfl, h1⟩ | ⟨t1, t2, installed, st1, h1, h2, rfl⟩
  · obtain ⟨rfl, asked, k1, k2, _⟩ := queryInstalled_exec Y h1
    exact ⟨t, [], asked, [], by simp, k1, k2, rfl, fun h => absurd rfl h, .inl ⟨⟨e, rfl⟩, rfl⟩⟩
  · obtain ⟨rfl, asked, k1, k2, k3⟩ := queryInstalled_exec Y h1
    obtain ⟨rfl, k4, k5⟩ := k3 installed rfl
    rcases execution_bind.mp h2 with ⟨e, rfl, h3⟩ | ⟨t3, t4, _, st2, h3, h4, rfl⟩
    · exact absurd (initialState_exec hn hi h3).2.1 (by simp)
    obtain ⟨rfl, _, rfl⟩ := initialState_exec hn hi h3
    rcases execution_bind.mp h4 with ⟨e, rfl, h5⟩ | ⟨t5, t6, _, st3, h5, h6, rfl⟩
    · replace h5 := finalState_exec (d := installedState (if present then sorted asked else [])) (by exact hn) (by exact hf) h5
      exact absurd h5.2.1 (by simp)
    replace h5 := finalState_exec (d := installedState (if present then sorted asked else [])) (by exact hn) (by exact hf) h5
    obtain ⟨rfl, _, rfl⟩ := h5
    dsimp only at h6
    have hact : (if present then forEach m.install (order ((distinct asked).filter fun p => !installed.contains p))
        else forEach m.uninstall (order (distinct installed))) = forEach (fun p => runCommand ((if present then install else remove) p)) (order (todoOf asked installed present)) := by
      have e1 : m.install = fun p => runCommand (install p) := funext Y.installs
      have e2 : m.uninstall = fun p => runCommand (remove p) := funext Y.uninstalls
      cases present <;> simp [todoOf, e1, e2]
    rw [hact] at h6
    have hstates : States { st1 with op := { st1.op with initial := some (installedState (sorted (distinct installed))), final := some (installedState (if present then sorted asked else [])) } }
        (installedState (sorted (distinct installed))) (installedState (if present then sorted asked else [])) := ⟨rfl, hn, rfl, rfl⟩
    have hsaid : ∀ p, p ∈ installed ↔ SaidInstalled query yes t1 p := fun p => by rw [said_iff Y]; exact k4 p
    simp only [List.nil_append]
    rcases settle_exec hstates h6 with ⟨rfl, hor, rfl, rfl⟩ | ⟨hneq, hdry, r1, st4, h7, h8⟩
    · refine ⟨t1, [], asked, [], rfl, k1, k2, rfl, fun h => absurd rfl h, .inr ⟨rfl, installed, k5, hsaid, List.nil_prefix, ?_⟩⟩
      rintro res ⟨⟩
      refine ⟨rfl, rfl, fun hd hc => ?_⟩
      rcases hor with h | h
      · rw [h] at hc; cases hc
      · rw [h] at hd; cases hd
    · obtain ⟨rfl, done, d1, d2, d3⟩ := forEach_exec (cmd := fun p => (if present then install else remove) p) (fun _ => rfl) h7
      refine ⟨t1, t6, asked, done, rfl, k1, k2, d2, fun _ => ⟨rfl, hdry⟩, .inr ⟨rfl, installed, k5, hsaid, d1, ?_⟩⟩
      rintro res rfl
      rcases h8 with ⟨e, _, h9, _⟩ | ⟨rfl, h9⟩
      · cases h9
      · obtain ⟨h10, _⟩ := h9 hstates
        cases h10
        refine ⟨rfl, by rw [hneq]; rfl, fun _ _ => d3 () rfl⟩

end
end Verif.Ops
