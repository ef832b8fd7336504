/-
Sorting and sets of strings.
-/
import Verif.Ops.System

namespace Verif.Ops

theorem strLe_refl : ∀ a : Str, strLe a a = true
  | [] => rfl
  | a :: as => by unfold strLe; rw [if_pos rfl]; exact strLe_refl as

theorem strLe_total : ∀ a b : Str, strLe a b = true ∨ strLe b a = true
  | [], _ => .inl (by unfold strLe; rfl)
  | _ :: _, [] => .inr (by unfold strLe; rfl)
  | a :: as, b :: bs => by
    unfold strLe
    by_cases h : a = b
    · subst h; rw [if_pos rfl, if_pos rfl]; exact strLe_total as bs
    · rw [if_neg h, if_neg (Ne.symm h)]
      simp only [decide_eq_true_eq]
      exact Nat.lt_or_gt_of_ne h

theorem strLe_antisymm : ∀ {a b : Str}, strLe a b = true → strLe b a = true → a = b
  | [], [], _, _ => rfl
  | [], _ :: _, _, h => by simp [strLe] at h
  | _ :: _, [], h, _ => by simp [strLe] at h
  | a :: as, b :: bs, h1, h2 => by
    unfold strLe at h1 h2
    by_cases h : a = b
    · subst h
      rw [if_pos rfl] at h1 h2
      rw [strLe_antisymm h1 h2]
    · rw [if_neg h] at h1
      rw [if_neg (Ne.symm h)] at h2
      simp only [decide_eq_true_eq] at h1 h2
      exact absurd h1 (Nat.not_lt.mpr (Nat.le_of_lt h2))

theorem strLe_trans : ∀ {a b c : Str}, strLe a b = true → strLe b c = true → strLe a c = true
  | [], _, _, _, _ => by unfold strLe; rfl
  | _ :: _, [], _, h, _ => by simp [strLe] at h
  | _ :: _, _ :: _, [], _, h => by simp [strLe] at h
  | a :: as, b :: bs, c :: cs, h1, h2 => by
    unfold strLe at h1 h2 ⊢
    by_cases hab : a = b
    · subst hab
      rw [if_pos rfl] at h1
      by_cases hac : a = c
      · subst hac
        rw [if_pos rfl] at h2 ⊢
        exact strLe_trans h1 h2
      · rw [if_neg hac] at h2 ⊢
        exact h2
    · rw [if_neg hab] at h1
      simp only [decide_eq_true_eq] at h1
      by_cases hbc : b = c
      · subst hbc
        rw [if_neg hab]
        simpa using h1
      · rw [if_neg hbc] at h2
        simp only [decide_eq_true_eq] at h2
        have : a < c := Nat.lt_trans h1 h2
        rw [if_neg (Nat.ne_of_lt this)]
        simpa using this

theorem insertStr_perm (x : Str) : ∀ l, (insertStr x l).Perm (x :: l)
  | [] => .refl _
  | y :: ys => by
    unfold insertStr
    split
    · exact .refl _
    · exact ((insertStr_perm x ys).cons y).trans (.swap _ _ _)

theorem sorted_perm : ∀ l, (sorted l).Perm l
  | [] => .refl _
  | x :: xs => (insertStr_perm x _).trans ((sorted_perm xs).cons x)

theorem insertStr_sorted (x : Str) : ∀ {l : List Str}, l.Pairwise (fun a b => strLe a b = true) → (insertStr x l).Pairwise (fun a b => strLe a b = true)
  | [], _ => by simp [insertStr]
  | y :: ys, h => by
    unfold insertStr
    have h' := List.pairwise_cons.mp h
    split
    · next hxy =>
      refine List.pairwise_cons.mpr ⟨?_, h⟩
      intro z hz
      rcases List.mem_cons.mp hz with rfl | hz
      · exact hxy
      · exact strLe_trans hxy (h'.1 z hz)
    · next hxy =>
      refine List.pairwise_cons.mpr ⟨?_, insertStr_sorted x h'.2⟩
      intro z hz
      rcases List.mem_cons.mp ((insertStr_perm x ys).mem_iff.mp hz) with rfl | hz
      · exact (strLe_total y z).resolve_right hxy
      · exact h'.1 z hz

theorem sorted_sorted : ∀ l, (sorted l).Pairwise (fun a b => strLe a b = true)
  | [] => .nil
  | x :: xs => insertStr_sorted x (sorted_sorted xs)

theorem sorted_eq_iff {a b : List Str} : sorted a = sorted b ↔ a.Perm b := by
  constructor
  · intro h
    exact (sorted_perm a).symm.trans (h ▸ sorted_perm b)
  · intro h
    exact List.Perm.eq_of_pairwise (fun a b _ _ h1 h2 => strLe_antisymm h1 h2) (sorted_sorted a) (sorted_sorted b)
      ((sorted_perm a).trans (h.trans (sorted_perm b).symm))

theorem mem_sorted {x : Str} {l : List Str} : x ∈ sorted l ↔ x ∈ l := (sorted_perm l).mem_iff

theorem sorted_nil_iff {l : List Str} : sorted l = [] ↔ l = [] := by
  constructor
  · intro h
    have := sorted_perm l
    rw [h] at this
    exact List.nil_perm.mp this
  · rintro rfl; rfl

theorem sorted_idem (l : List Str) : sorted (sorted l) = sorted l := sorted_eq_iff.mpr (sorted_perm l)

theorem mem_distinct {x : Str} : ∀ {l : List Str}, x ∈ distinct l ↔ x ∈ l
  | [] => Iff.rfl
  | y :: ys => by
    unfold distinct
    split
    · next h =>
      rw [mem_distinct (l := ys), List.mem_cons]
      constructor
      · exact .inr
      · rintro (rfl | h')
        · simpa using h
        · exact h'
    · rw [List.mem_cons, List.mem_cons, mem_distinct (l := ys)]

theorem distinct_nodup : ∀ l, (distinct l).Nodup
  | [] => .nil
  | y :: ys => by
    unfold distinct
    split
    · exact distinct_nodup ys
    · next h =>
      refine List.nodup_cons.mpr ⟨?_, distinct_nodup ys⟩
      rw [mem_distinct]
      simpa using h

theorem distinct_nil_iff {l : List Str} : distinct l = [] ↔ l = [] := by
  constructor
  · intro h
    cases l with
    | nil => rfl
    | cons x xs =>
      have : x ∈ distinct (x :: xs) := mem_distinct.mpr (by simp)
      rw [h] at this
      cases this
  · rintro rfl; rfl

/-- Two lists without duplicates have the same elements in the same order once sorted, if they have the same elements. -/
theorem sorted_eq_of_mem {a b : List Str} (ha : a.Nodup) (hb : b.Nodup) (h : ∀ x, x ∈ a ↔ x ∈ b) : sorted a = sorted b :=
  sorted_eq_iff.mpr ((List.perm_ext_iff_of_nodup ha hb).mpr h)

theorem mem_of_sorted_eq {a b : List Str} (h : sorted a = sorted b) (x : Str) : x ∈ a ↔ x ∈ b :=
  (sorted_eq_iff.mp h).mem_iff

end Verif.Ops
