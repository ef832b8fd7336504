/-
C64: for which hosts the script is run.
-/
import Verif.Run.Main

namespace Verif.Run

/-- The hosts asked for: the parts of the option between commas, or all hosts. -/
def Wanted (loaded : List Str) (hosts : Option Str) (wanted : List Str) : Prop :=
  match hosts with
  | none => wanted = loaded
  | some h => Py.join [44] wanted = h ∧ wanted ≠ [] ∧ ∀ w ∈ wanted, 44 ∉ w

/-- The list without repetitions: every host once, in the order in which they occur first. -/
structure FirstOccurrences (wanted selected : List Str) : Prop where
  once : selected.Nodup
  same : ∀ h, h ∈ selected ↔ h ∈ wanted
  order : selected.Pairwise fun a b => wanted.idxOf a < wanted.idxOf b

theorem split_ne_nil (c : Nat) : ∀ s, split c s ≠ []
  | [] => by simp [split]
  | x :: xs => by
    unfold split
    split
    · simp
    · split <;> simp

theorem join_cons (sep p : Str) : ∀ ps : List Str, ps ≠ [] → Py.join sep (p :: ps) = p ++ sep ++ Py.join sep ps
  | [], h => absurd rfl h
  | _ :: _, _ => rfl

theorem join_cons_cons (sep p : Str) (x : Nat) : ∀ ps : List Str, Py.join sep ((x :: p) :: ps) = x :: Py.join sep (p :: ps)
  | [] => rfl
  | _ :: _ => rfl

theorem split_spec (c : Nat) : ∀ s, Py.join [c] (split c s) = s ∧ ∀ w ∈ split c s, c ∉ w
  | [] => by simp [split, Py.join]
  | x :: xs => by
    obtain ⟨ih1, ih2⟩ := split_spec c xs
    unfold split
    split
    · next h =>
      subst h
      rw [join_cons _ _ _ (split_ne_nil _ _), ih1]
      refine ⟨rfl, fun w hw => ?_⟩
      rcases List.mem_cons.mp hw with rfl | hw
      · simp
      · exact ih2 w hw
    · next h =>
      split
      · next he => exact absurd he (split_ne_nil _ _)
      · next p ps he =>
        rw [he] at ih1 ih2
        rw [join_cons_cons, ih1]
        refine ⟨rfl, fun w hw => ?_⟩
        rcases List.mem_cons.mp hw with rfl | hw
        · intro hm
          rcases List.mem_cons.mp hm with rfl | hm
          · exact h rfl
          · exact ih2 p (by simp) hm
        · exact ih2 w (by simp [hw])

theorem split_nocomma (c : Nat) : ∀ w : Str, c ∉ w → split c w = [w]
  | [], _ => rfl
  | x :: xs, h => by
    rw [List.mem_cons, not_or] at h
    rw [split, if_neg (fun e => h.1 e.symm), split_nocomma c xs h.2]

theorem split_append (c : Nat) : ∀ (w r : Str), c ∉ w → split c (w ++ c :: r) = w :: split c r
  | [], r, _ => by simp [split]
  | x :: xs, r, h => by
    rw [List.mem_cons, not_or] at h
    rw [List.cons_append, split, if_neg (fun e => h.1 e.symm), split_append c xs r h.2]

theorem split_join (c : Nat) : ∀ ws : List Str, ws ≠ [] → (∀ w ∈ ws, c ∉ w) → split c (Py.join [c] ws) = ws
  | [], h, _ => absurd rfl h
  | [w], _, h => split_nocomma c w (h w (by simp))
  | w :: v :: ws, _, h => by
    rw [join_cons _ _ _ (by simp), List.append_assoc, List.singleton_append, split_append c w _ (h w (by simp)),
      split_join c (v :: ws) (by simp) (fun u hu => h u (by simp [hu]))]

theorem wanted_iff {loaded : List Str} {hosts : Option Str} {wanted : List Str} :
    Wanted loaded hosts wanted ↔ wanted = requested loaded hosts := by
  cases hosts with
  | none => exact Iff.rfl
  | some h =>
    constructor
    · rintro ⟨h1, h2, h3⟩
      subst h1
      exact (split_join 44 wanted h2 h3).symm
    · rintro rfl
      exact ⟨(split_spec 44 h).1, split_ne_nil _ _, (split_spec 44 h).2⟩

theorem FirstOccurrences.snoc_old {w s : List Str} (h : FirstOccurrences w s) {a : Str} (ha : a ∈ s) : FirstOccurrences (w ++ [a]) s := by
  refine ⟨h.once, fun b => ?_, ?_⟩
  · rw [h.same b, List.mem_append, List.mem_singleton]
    constructor
    · exact Or.inl
    · rintro (hb | rfl)
      · exact hb
      · exact (h.same b).mp ha
  · refine List.Pairwise.imp_of_mem ?_ h.order
    intro x y hx hy hxy
    rw [List.idxOf_append, List.idxOf_append, if_pos ((h.same x).mp hx), if_pos ((h.same y).mp hy)]
    exact hxy

theorem FirstOccurrences.snoc_new {w s : List Str} (h : FirstOccurrences w s) {a : Str} (ha : a ∉ s) : FirstOccurrences (w ++ [a]) (s ++ [a]) := by
  refine ⟨?_, fun b => ?_, ?_⟩
  · rw [List.nodup_append]
    refine ⟨h.once, by simp, ?_⟩
    intro x hx y hy hxy
    rw [List.mem_singleton] at hy
    subst hy hxy
    exact ha hx
  · rw [List.mem_append, List.mem_append, h.same b]
  · rw [List.pairwise_append]
    refine ⟨?_, by simp, ?_⟩
    · refine List.Pairwise.imp_of_mem ?_ h.order
      intro x y hx hy hxy
      rw [List.idxOf_append, List.idxOf_append, if_pos ((h.same x).mp hx), if_pos ((h.same y).mp hy)]
      exact hxy
    · intro x hx y hy
      rw [List.mem_singleton] at hy
      subst hy
      rw [List.idxOf_append, List.idxOf_append, if_pos ((h.same x).mp hx), if_neg (fun hm => ha ((h.same y).mpr hm))]
      have := List.idxOf_lt_length_of_mem ((h.same x).mp hx)
      omega

theorem select_spec {loaded : List Str} : ∀ {hs seen selected : List Str}, FirstOccurrences seen selected →
    (∀ {r}, select loaded hs selected = .ok r → FirstOccurrences (seen ++ hs) r ∧ ∀ h ∈ hs, h ∈ loaded ∨ h ∈ selected)
    ∧ (∀ {m}, select loaded hs selected = .error m → ∃ h ∈ hs, h ∉ loaded ∧ m = p!"Unknown host '" ++ h ++ p!"'")
  | [], seen, selected, hf => ⟨fun h => (by cases h; simpa using hf), fun h => by cases h⟩
  | h :: hs, seen, selected, hf => by
    unfold select
    by_cases h1 : h ∈ selected
    · rw [if_pos h1]
      obtain ⟨ih1, ih2⟩ := select_spec (loaded := loaded) (hs := hs) (hf.snoc_old h1)
      refine ⟨fun hr => ?_, fun hr => ?_⟩
      · obtain ⟨a, b⟩ := ih1 hr
        refine ⟨by simpa using a, fun x hx => ?_⟩
        rcases List.mem_cons.mp hx with rfl | hx
        · exact Or.inr h1
        · exact b x hx
      · obtain ⟨x, hx, b⟩ := ih2 hr
        exact ⟨x, by simp [hx], b⟩
    · rw [if_neg h1]
      by_cases h2 : h ∈ loaded
      · rw [if_pos h2]
        obtain ⟨ih1, ih2⟩ := select_spec (loaded := loaded) (hs := hs) (hf.snoc_new h1)
        refine ⟨fun hr => ?_, fun hr => ?_⟩
        · obtain ⟨a, b⟩ := ih1 hr
          refine ⟨by simpa using a, fun x hx => ?_⟩
          rcases List.mem_cons.mp hx with rfl | hx
          · exact Or.inl h2
          · rcases b x hx with hb | hb
            · exact Or.inl hb
            · rcases List.mem_append.mp hb with hb | hb
              · exact Or.inr hb
              · rw [List.mem_singleton] at hb
                subst hb
                exact Or.inl h2
        · obtain ⟨x, hx, b⟩ := ih2 hr
          exact ⟨x, by simp [hx], b⟩
      · rw [if_neg h2]
        exact ⟨fun hr => (by cases hr), fun hr => by cases hr; exact ⟨h, by simp, h2, rfl⟩⟩

theorem firstOccurrences_nil : FirstOccurrences [] [] := ⟨List.nodup_nil, fun _ => Iff.rfl, List.Pairwise.nil⟩

/-- The option determines which hosts are wanted. -/
theorem C64_wanted (loaded : List Str) (hosts : Option Str) : ∃ wanted, Wanted loaded hosts wanted ∧ ∀ other, Wanted loaded hosts other → other = wanted :=
  ⟨_, wanted_iff.mpr rfl, fun _ h => wanted_iff.mp h⟩

/-- C64: if a host is asked for that is not in the inventory, the program ends with an error that names such a host. The script is
run for no host at all. -/
theorem C64_unknown {σ : Type} (loaded : List Str) (hosts : Option Str) (wanted : List Str) (run : Str → σ → Except Exc Unit × σ) (s : σ)
    (hw : Wanted loaded hosts wanted) (hu : ∃ h ∈ wanted, h ∉ loaded) :
    ∃ h ∈ wanted, h ∉ loaded ∧ mainRun loaded hosts run s = (.died (p!"Unknown host '" ++ h ++ p!"'"), [], s) := by
  have hw' := wanted_iff.mp hw
  unfold mainRun
  rw [← hw']
  obtain ⟨h1, h2⟩ := select_spec (loaded := loaded) (hs := wanted) firstOccurrences_nil
  cases hs : select loaded wanted [] with
  | ok r =>
    obtain ⟨_, hb⟩ := h1 hs
    obtain ⟨h, hh, hn⟩ := hu
    rcases hb h hh with hb | hb
    · exact absurd hb hn
    · simp at hb
  | error m =>
    obtain ⟨h, hh, hn, rfl⟩ := h2 hs
    exact ⟨h, hh, hn, rfl⟩

/-- The script has been run for the hosts of the list one after another, without an exception, and then the state is the last
one. -/
inductive Completed {σ : Type} (run : Str → σ → Except Exc Unit × σ) : σ → List Str → σ → Prop where
  | none (s : σ) : Completed run s [] s
  | next {s s1 s2 : σ} {h : Str} {hs : List Str} : run h s = (.ok (), s1) → Completed run s1 hs s2 → Completed run s (h :: hs) s2

/-- How the hosts of the list were dealt with, how the program ended, and for which hosts it had started: either the script was run
for all of them, or there was an exception at one of them, and the script was not run for the ones after it. -/
def RunInOrder {σ : Type} (run : Str → σ → Except Exc Unit × σ) (s : σ) (hs : List Str) (r : End × List Str × σ) : Prop :=
  (Completed run s hs r.2.2 ∧ r.1 = .finished ∧ r.2.1 = hs)
  ∨ ∃ before h after s1 e, hs = before ++ h :: after ∧ Completed run s before s1 ∧ run h s1 = (.error e, r.2.2) ∧ r.1 = .raised e ∧ r.2.1 = before ++ [h]

theorem runHosts_spec {σ : Type} (run : Str → σ → Except Exc Unit × σ) : ∀ (hs : List Str) (s : σ), RunInOrder run s hs (runHosts run hs s)
  | [], s => Or.inl ⟨.none s, rfl, rfl⟩
  | h :: hs, s => by
    unfold runHosts
    cases hr : run h s with
    | mk r s1 =>
      cases r with
      | error e => exact Or.inr ⟨[], h, hs, s, e, rfl, .none s, hr, rfl, rfl⟩
      | ok u =>
        rcases runHosts_spec run hs s1 with ⟨a, b, c⟩ | ⟨before, x, after, s2, e, a, b, c, d, f⟩
        · exact Or.inl ⟨.next hr a, b, by simp [c]⟩
        · exact Or.inr ⟨h :: before, x, after, s2, e, by simp [a], .next hr b, c, d, by simp [f]⟩

/-- C64: if all hosts asked for are in the inventory, the script is run once for every one of them, in the order in which they
are mentioned first. An exception ends the program. -/
theorem C64_known {σ : Type} (loaded : List Str) (hosts : Option Str) (wanted : List Str) (run : Str → σ → Except Exc Unit × σ) (s : σ)
    (hw : Wanted loaded hosts wanted) (hk : ∀ h ∈ wanted, h ∈ loaded) :
    ∃ selected, FirstOccurrences wanted selected ∧ RunInOrder run s selected (mainRun loaded hosts run s) := by
  have hw' := wanted_iff.mp hw
  unfold mainRun
  rw [← hw']
  obtain ⟨h1, h2⟩ := select_spec (loaded := loaded) (hs := wanted) firstOccurrences_nil
  cases hs : select loaded wanted [] with
  | ok r => exact ⟨r, by simpa using (h1 hs).1, runHosts_spec run r s⟩
  | error m =>
    obtain ⟨h, hh, hn, _⟩ := h2 hs
    exact absurd (hk h hh) hn

theorem firstOccurrences_self {l r : List Str} (hl : l.Nodup) (h : FirstOccurrences l r) : r = l := by
  have hlen : ∀ x ∈ r, x ∈ l := fun x hx => (h.same x).mp hx
  -- both lists are ordered by the position in `l`, and have the same members
  have key : ∀ {a b : List Str} {f : Str → Nat}, a.Pairwise (fun x y => f x < f y) → b.Pairwise (fun x y => f x < f y) → (∀ x, x ∈ a ↔ x ∈ b) → a = b := by
    intro a
    induction a with
    | nil =>
      intro b f _ _ hm
      cases b with
      | nil => rfl
      | cons y ys => exact absurd ((hm y).mpr (by simp)) (by simp)
    | cons x xs ih =>
      intro b f ha hb hm
      cases b with
      | nil => exact absurd ((hm x).mp (by simp)) (by simp)
      | cons y ys =>
        rw [List.pairwise_cons] at ha hb
        have hxy : x = y := by
          rcases List.mem_cons.mp ((hm x).mp (by simp)) with e | hx
          · exact e
          · rcases List.mem_cons.mp ((hm y).mpr (by simp)) with e | hy
            · exact e.symm
            · have h1 := ha.1 y hy
              have h2 := hb.1 x hx
              omega
        subst hxy
        congr 1
        refine ih ha.2 hb.2 (fun z => ?_)
        constructor
        · intro hz
          rcases List.mem_cons.mp ((hm z).mp (by simp [hz])) with e | h'
          · have := ha.1 z hz
            rw [e] at this
            omega
          · exact h'
        · intro hz
          rcases List.mem_cons.mp ((hm z).mpr (by simp [hz])) with e | h'
          · have := hb.1 z hz
            rw [e] at this
            omega
          · exact h'
  refine key (f := fun a => l.idxOf a) h.order ?_ h.same
  clear hlen h key
  rw [List.pairwise_iff_getElem]
  intro i j hi hj hij
  rw [hl.idxOf_getElem i hi, hl.idxOf_getElem j hj]
  exact hij

/-- C64: without a selection the script is run for all hosts of the inventory, in their order. (The names of the hosts are the
keys of a dict, so they are distinct.) -/
theorem C64_all {σ : Type} (loaded : List Str) (run : Str → σ → Except Exc Unit × σ) (s : σ) (hl : loaded.Nodup) :
    RunInOrder run s loaded (mainRun loaded none run s) := by
  obtain ⟨sel, hf, hr⟩ := C64_known loaded none loaded run s rfl (fun h hh => hh)
  rw [firstOccurrences_self hl hf] at hr
  exact hr

/-- `--hosts b,a,b` with the hosts a, b and c: b first, then a. -/
example : Wanted [p!"a", p!"b", p!"c"] (some p!"b,a,b") [p!"b", p!"a", p!"b"] := ⟨rfl, by simp, by decide⟩

example : FirstOccurrences [p!"b", p!"a", p!"b"] [p!"b", p!"a"] := ⟨by decide, fun h => (by simp only [List.mem_cons, List.not_mem_nil, or_false]; grind), by decide⟩

example : (mainRun [p!"a", p!"b", p!"c"] (some p!"b,a,b") (fun h s => (.ok (), s ++ h)) []).2 = ([p!"b", p!"a"], p!"ba") := by decide

/-- The exception at b keeps the script from being run for c. -/
example : (mainRun [p!"a", p!"b", p!"c"] none (fun h s => if h = p!"b" then (.error notFound, s) else (.ok (), s ++ h)) []).2 = ([p!"a", p!"b"], p!"a") := by
  decide

example : (mainRun [p!"a", p!"b"] (some p!"a,x") (fun h s => (.ok (), s ++ h)) []).2 = ([], []) := by decide

end Verif.Run
