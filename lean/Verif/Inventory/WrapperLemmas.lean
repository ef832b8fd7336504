/-
Lemmas about dicts of variables and wrappers.
-/
import Verif.Inventory.Load
import Verif.Inventory.DeclLemmas

namespace Verif.Inventory

theorem lookup_setItem {δ : Type} {k : Str} {v : δ} {x : Str} : ∀ {l : Decls δ}, (setItem k v l).lookup x = if x = k then some v else l.lookup x
  | [] => by
    rw [setItem, List.lookup_cons]
    by_cases h : x = k
    · simp [h]
    · have : (x == k) = false := by simpa using h
      simp [h, this]
  | (a, b) :: l => by
    rw [setItem]
    by_cases ha : a = k
    · rw [if_pos ha, List.lookup_cons, List.lookup_cons]
      by_cases h : x = k
      · simp [h]
      · have : (x == k) = false := by simpa using h
        simp [h, ha, this]
    · rw [if_neg ha, List.lookup_cons, List.lookup_cons, lookup_setItem]
      by_cases h : x = a
      · subst h; simp [ha]
      · have : (x == a) = false := by simpa using h
        simp [this]

theorem Vars.get_set {d : Vars} {k x : Str} {v : Obj} : (d.set k v).get x = if x = k then some v else d.get x := lookup_setItem

@[simp] theorem Vars.get_empty {x : Str} : ({} : Vars).get x = none := rfl

theorem Vars.get_update_foldl {x : Str} : ∀ {l : List (Str × Obj)} {d : Vars}, (l.map (·.1)).Nodup →
    (l.foldl (fun d kv => d.set kv.1 kv.2) d).get x = (l.lookup x).or (d.get x)
  | [], d, _ => by simp
  | (a, b) :: l, d, h => by
    simp only [List.map_cons, List.nodup_cons] at h
    rw [List.foldl_cons, Vars.get_update_foldl h.2, Vars.get_set, List.lookup_cons]
    by_cases hx : x = a
    · subst hx
      have : l.lookup x = none := by
        cases hl : l.lookup x with
        | none => rfl
        | some v => exact absurd (List.mem_map.mpr ⟨_, lookup_mem hl, rfl⟩) h.1
      simp [this]
    · have : (x == a) = false := by simpa using hx
      simp [this, hx]

theorem Vars.get_update {d e : Vars} {x : Str} : (d.update e).get x = (e.get x).or (d.get x) := Vars.get_update_foldl e.nodup

theorem lookup_filter {p : Str → Obj → Bool} {x : Str} : ∀ {l : List (Str × Obj)}, (l.map (·.1)).Nodup →
    (l.filter fun kv => p kv.1 kv.2).lookup x = (l.lookup x).filter (p x)
  | [], _ => by simp
  | (a, b) :: l, h => by
    simp only [List.map_cons, List.nodup_cons] at h
    rw [List.filter_cons, List.lookup_cons]
    by_cases hx : x = a
    · subst hx
      by_cases hp : p x b
      · simp [hp, Option.filter]
      · have : l.lookup x = none := by
          cases hl : l.lookup x with
          | none => rfl
          | some v => exact absurd (List.mem_map.mpr ⟨_, lookup_mem hl, rfl⟩) h.1
        simp [hp, lookup_filter h.2, this, Option.filter]
    · have hxa : (x == a) = false := by simpa using hx
      simp only [hxa]
      split
      · rw [List.lookup_cons, hxa]; exact lookup_filter h.2
      · exact lookup_filter h.2

theorem Vars.get_filter {p : Str → Obj → Bool} {d : Vars} {x : Str} : (d.filter p).get x = (d.get x).filter (p x) := lookup_filter d.nodup

theorem Vars.mem_iff_get {d : Vars} {x : Str} {v : Obj} : (x, v) ∈ d.items ↔ d.get x = some v :=
  ⟨fun h => lookup_of_mem d.nodup h, fun h => lookup_mem h⟩

/-- The dict of a wrapper. -/
theorem Wrapper.get_dict {w : Wrapper} {x : Str} (hx : x ≠ p!"module") : w.dict.get x = w.attrs.get x := by
  unfold Wrapper.dict
  split
  · rfl
  · rw [Vars.get_set, if_neg hx]

theorem Wrapper.get_vars_none {w : Wrapper} {x : Str} (hm : w.module = none) : w.vars.get x = w.attrs.get x := by
  unfold Wrapper.vars Wrapper.dict
  rw [hm]

theorem Wrapper.get_vars {w : Wrapper} {m : Mod} {x : Str} (hm : w.module = some m) : w.vars.get x = (m.attrs.get x).or (w.dict.get x) := by
  unfold Wrapper.vars
  rw [hm]
  exact Vars.get_update

/-- A public attribute is what `vars` contains, or else an attribute of the class. -/
theorem Wrapper.get_public {w : Wrapper} {x : Str} (hx : Py.startsWith x p!"_" = false) : w.get x = (w.vars.get x).or (w.ofClass x) := by
  unfold Wrapper.get
  cases hm : w.module with
  | none =>
    simp only
    rw [Wrapper.getRaw, Wrapper.vars, hm]
  | some m =>
    simp only [hx, Bool.false_or]
    rw [Wrapper.get_vars hm]
    cases hg : m.attrs.get x with
    | none => simp [Wrapper.getRaw]
    | some v => simp

end Verif.Inventory
