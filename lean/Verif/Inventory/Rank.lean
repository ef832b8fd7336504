/-
`rank_sort`, src/fora/utils.py:148-229.
-/
import Verif.Py.Str

namespace Verif.Inventory

variable {α : Type} [DecidableEq α]

/-- What `rank_sort` may raise: `CycleError(msg, cycle)` (utils.py:37-42, a subclass of `ValueError`; the message is not kept), or
`KeyError` for a neighbour that is not one of the vertices. -/
inductive RankError (α : Type) where
  | cycle (cycle : List α)
  | keyError
  deriving DecidableEq, Repr

/-- Assignment `d[k] = v`. The dicts `ranks` and `visited` are total functions here; that a key is not one of the vertices is
checked separately. -/
def assign {β : Type} (d : α → β) (k : α) (v : β) : α → β := fun x => if x = k then v else d x

theorem countP_lt {α : Type} {p q : α → Bool} : ∀ {l : List α}, (∀ x ∈ l, p x = true → q x = true) → (∃ x ∈ l, q x = true ∧ p x = false) →
    l.countP p < l.countP q
  | [], _, ⟨_, h, _⟩ => by cases h
  | y :: l, himp, ⟨x, hx, hq, hp⟩ => by
    have hle : ∀ l' : List α, (∀ x ∈ l', p x = true → q x = true) → l'.countP p ≤ l'.countP q := fun l' h => List.countP_mono_left h
    rw [List.countP_cons, List.countP_cons]
    rcases List.mem_cons.mp hx with rfl | hx
    · simp only [hq, hp, if_true]
      have := hle l (fun z hz => himp z (List.mem_cons_of_mem _ hz))
      simp only [Bool.false_eq_true, if_false]
      omega
    · have h1 := countP_lt (l := l) (fun z hz => himp z (List.mem_cons_of_mem _ hz)) ⟨x, hx, hq, hp⟩
      have h2 : (if p y = true then 1 else 0) ≤ (if q y = true then 1 else 0) := by
        split
        · rw [if_pos (himp y (by simp) ‹_›)]; exact Nat.le_refl 1
        · exact Nat.zero_le _
      omega

/-- utils.py:181-191: go to the first predecessor until there is none. `visited` contains the vertices seen on the way. -/
def findRoot (vertices : List α) (preds : α → List α) (visited : α → Bool) (root : α) : Except (RankError α) α :=
  match preds root with
  | [] => .ok root
  | x :: _ =>
    if hx : x ∈ vertices then
      if hv : visited x = true then .error (.cycle (vertices.filter visited))
      else findRoot vertices preds (assign visited x true) x
    else .error .keyError
termination_by vertices.countP (fun v => !visited v)
decreasing_by
  refine countP_lt (fun y _ h => ?_) ⟨x, hx, by simpa using hv, by simp [assign]⟩
  unfold assign at h
  split at h <;> simp_all

/-- What is left to do at most: as long as the rank of a vertex grows, its children are queued again. -/
def potential (vertices : List α) (childs : α → List α) (ranks : α → Int) : Nat :=
  (vertices.map fun v => ((vertices.length : Int) - ranks v).toNat * (childs v).length).sum

theorem potential_le {childs : α → List α} {ranks : α → Int} {n : α} {r : Int} {len : Int} (hn : ranks n ≤ r) :
    ∀ l : List α, (l.map fun v => (len - assign ranks n r v).toNat * (childs v).length).sum
      ≤ (l.map fun v => (len - ranks v).toNat * (childs v).length).sum
  | [] => Nat.le_refl _
  | v :: l => by
    have ih := potential_le (childs := childs) (len := len) hn l
    simp only [List.map_cons, List.sum_cons]
    refine Nat.add_le_add (Nat.mul_le_mul_right _ ?_) ih
    unfold assign
    split
    · next h => rw [h]; omega
    · exact Nat.le_refl _

theorem potential_lt {childs : α → List α} {ranks : α → Int} {n : α} {r : Int} {len : Int} (hn : ranks n < r) (hr : r ≤ len) :
    ∀ {l : List α}, n ∈ l → (l.map fun v => (len - assign ranks n r v).toNat * (childs v).length).sum + (childs n).length
      ≤ (l.map fun v => (len - ranks v).toNat * (childs v).length).sum
  | v :: l, h => by
    simp only [List.map_cons, List.sum_cons]
    by_cases hv : v = n
    · have ih := potential_le (childs := childs) (len := len) (Int.le_of_lt hn) l
      have h1 : (len - assign ranks n r v).toNat + 1 ≤ (len - ranks v).toNat := by
        unfold assign
        rw [if_pos hv, hv]
        omega
      have h2 := Nat.mul_le_mul_right (childs v).length h1
      rw [Nat.add_mul, Nat.one_mul] at h2
      rw [hv] at h2 ⊢
      omega
    · have ih := potential_lt (childs := childs) (len := len) hn hr (l := l) (by simpa [Ne.symm hv] using h)
      have h1 : (len - assign ranks n r v).toNat = (len - ranks v).toNat := by unfold assign; rw [if_neg hv]
      rw [h1]
      omega

/-- utils.py:199-216: assign ranks breadth first. The queue contains pairs of a vertex and the predecessor it was queued for. -/
def assignRanks (vertices : List α) (childs : α → List α) (ranks : α → Int) (queue : List (α × α)) : Except (RankError α) (α → Int) :=
  match queue with
  | [] => .ok ranks
  | (n, p) :: queue =>
    if hr : ranks p + 1 > vertices.length then .error (.cycle [p])
    else if hv : n ∈ vertices then
      if hn : ranks n ≥ ranks p + 1 then assignRanks vertices childs ranks queue
      else assignRanks vertices childs (assign ranks n (ranks p + 1)) (queue ++ (childs n).map fun c => (c, n))
    else .error .keyError
termination_by potential vertices childs ranks + queue.length
decreasing_by
  · simp
  · have := potential_lt (childs := childs) (ranks := ranks) (n := n) (r := ranks p + 1) (len := vertices.length) (by omega) (by omega) hv
    unfold potential
    simp only [List.length_append, List.length_map, List.length_cons]
    omega

/-- utils.py:222-227: every edge must lead to a higher rank. -/
def checkEdges (vertices : List α) (ranks : α → Int) (v : α) : List α → Except (RankError α) Unit
  | [] => .ok ()
  | c :: cs =>
    if c ∈ vertices then
      if ranks c ≤ ranks v then .error (.cycle [c, v]) else checkEdges vertices ranks v cs
    else .error .keyError

/-- utils.py:222-227, the loop over all vertices. -/
def checkRanks (vertices : List α) (childs : α → List α) (ranks : α → Int) : List α → Except (RankError α) Unit
  | [] => .ok ()
  | v :: vs => do
    checkEdges vertices ranks v (childs v)
    checkRanks vertices childs ranks vs

/-- utils.py:175-216: the outer loop, at most `fuel` times. `none` if it is not done after that. (If `preds` and `childs` do not
agree, the loop may go on for ever.) -/
def rankLoop (vertices : List α) (preds childs : α → List α) : Nat → (α → Int) → Option (Except (RankError α) (α → Int))
  | 0, _ => none
  | fuel + 1, ranks =>
    match vertices.find? fun v => ranks v == -1 with
    | none => some (.ok ranks)
    | some start =>
      match findRoot vertices preds (assign (fun _ => false) start true) start with
      | .error e => some (.error e)
      | .ok root =>
        match assignRanks vertices childs (assign ranks root 0) ((childs root).map fun c => (c, root)) with
        | .error e => some (.error e)
        | .ok ranks => rankLoop vertices preds childs fuel ranks

/-- utils.py:148-229. The result is the dict `ranks`, as a function to be looked at for the vertices only. -/
def rankSort (fuel : Nat) (vertices : List α) (preds childs : α → List α) : Option (Except (RankError α) (α → Int)) :=
  (rankLoop vertices preds childs fuel fun _ => -1).map fun res => do
    let ranks ← res
    checkRanks vertices childs ranks vertices
    .ok ranks

end Verif.Inventory
