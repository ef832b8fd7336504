/-
What a template sees (C47): the variables that the operations hand to it.
-/
import Verif.Ops.HostSpec
import Verif.Inventory.WrapperProps

namespace Verif.Ops

open Script

section
variable {V : Type}

theorem lookup_setKey (d : List (Str × V)) (k : Str) (v : V) (a : Str) : (setKey d k v).lookup a = if a = k then some v else d.lookup a := by
  induction d with
  | nil =>
    unfold setKey
    by_cases h : a = k
    · simp [h]
    · simp [h, List.lookup, beq_eq_false_iff_ne.mpr h]
  | cons p d ih =>
    obtain ⟨k', v'⟩ := p
    unfold setKey
    by_cases hk : k' = k
    · subst hk
      rw [if_pos rfl]
      by_cases h : a = k'
      · simp [h]
      · simp [h, List.lookup_cons, beq_eq_false_iff_ne.mpr h]
    · rw [if_neg hk, List.lookup_cons, List.lookup_cons, ih]
      by_cases h : a = k
      · subst h
        have : (a == k') = false := by simpa using fun h => hk h.symm
        simp [this]
      · simp [h]

/-- A dictionary: no key occurs twice. -/
def UniqueKeys (d : List (Str × V)) : Prop := (d.map (·.1)).Nodup

theorem lookup_none_of_not_mem {d : List (Str × V)} {a : Str} (h : a ∉ d.map (·.1)) : d.lookup a = none := by
  induction d with
  | nil => rfl
  | cons p d ih =>
    obtain ⟨k, v⟩ := p
    simp only [List.map_cons, List.mem_cons, not_or] at h
    rw [List.lookup_cons, show (a == k) = false by simpa using h.1]
    exact ih h.2

theorem lookup_updateKeys : ∀ (e d : List (Str × V)), UniqueKeys e → ∀ a, (updateKeys d e).lookup a = (e.lookup a).or (d.lookup a)
  | [], d, _, a => by simp [updateKeys]
  | (k, v) :: e, d, hu, a => by
    unfold UniqueKeys at hu
    simp only [List.map_cons, List.nodup_cons] at hu
    rw [updateKeys, lookup_updateKeys e _ hu.2, lookup_setKey, List.lookup_cons]
    by_cases h : a = k
    · subst h
      rw [lookup_none_of_not_mem hu.1]
      simp
    · simp [h, beq_eq_false_iff_ne.mpr h]

end

/-- C47, for the operations: `template` and `template_content` call the template with variables among which `host` is the host, and
every other name but `inventory` is looked up in the context first, then among the variables of the host. What is stored is the text that
the template makes of these variables; an undefined variable is a ValueError. (What the variables of the host are, is the subject of
`C47_precedence_partial`. `inventory` is the host, see `C47_inventory_refuted`.) -/
theorem C47_template_sees_partial {V : Type} (templ : List (Str × V) → Rendered) (what : Str) (vars : List (Str × V)) (context : Option (List (Str × V))) (host : V)
    (hc : ∀ c, context = some c → UniqueKeys c) :
    ∃ seen : List (Str × V),
      seen.lookup p!"host" = some host ∧ seen.lookup p!"inventory" = some host
      ∧ (∀ a, a ≠ p!"host" → a ≠ p!"inventory" → seen.lookup a = (context.bind (·.lookup a)).or (vars.lookup a))
      ∧ (∀ text, templ seen = .text text → ∀ bytes, renderTemplate templ what vars context host = .ok bytes ↔ Py.encodeUtf8 text = some bytes)
      ∧ (∀ msg, templ seen = .undefined msg →
          renderTemplate templ what vars context host = .error (.valueError (p!"Error while templating " ++ what ++ p!": " ++ msg)))
      ∧ (∀ e, templ seen = .failed e → renderTemplate templ what vars context host = .error e) := by
  refine ⟨templateVars vars context host, ?_, ?_, ?_, ?_, ?_, ?_⟩
  · unfold templateVars
    rw [lookup_setKey, if_neg (by decide), lookup_setKey, if_pos rfl]
  · unfold templateVars
    rw [lookup_setKey, if_pos rfl]
  · intro a h1 h2
    unfold templateVars
    rw [lookup_setKey, if_neg h2, lookup_setKey, if_neg h1, lookup_updateKeys]
    · cases context <;> rfl
    · cases context with
      | none => exact List.nodup_nil
      | some c => exact hc c rfl
  · intro text h bytes
    unfold renderTemplate
    rw [h]
    simp only [Content.encode]
    cases Py.encodeUtf8 text <;> simp
  · intro msg h
    unfold renderTemplate
    rw [h]
  · intro e h
    unfold renderTemplate
    rw [h]

/-- A template that shows the variable `x`, with and without a context that defines it. -/
example : let templ : List (Str × Str) → Rendered := fun d => match d.lookup p!"x" with
      | some t => .text t
      | none => .undefined p!"'x' is undefined"
    (renderTemplate templ p!"string" [(p!"x", p!"1")] (some [(p!"x", p!"2")]) p!"web").toOption = some [50]
    ∧ (renderTemplate templ p!"string" [(p!"x", p!"1")] none p!"web").toOption = some [49] := by
  exact ⟨by decide, by decide⟩

end Verif.Ops
