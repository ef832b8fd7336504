/-
The lists of names in the classes are those of the specification.
-/
import Verif.Inventory.Wrapper
import Verif.Inventory.NamesSpec

namespace Verif.Inventory

theorem mem_wrapperMethods {x : Str} : x ∈ wrapperMethods ↔ x ∈ moduleNames := by
  simp only [wrapperMethods, moduleNames, List.mem_cons, List.not_mem_nil, or_false]
  constructor
  · rintro (h | h | h | h | h | h | h) <;> simp [h]
  · rintro (h | h | h | h | h | h | h) <;> simp [h]

/-- A name that does not start with an underscore is among those with underscores only if it is one of the others. -/
theorem mem_public {x : Str} {as bs : List Str} (hx : Py.startsWith x p!"_" = false)
    (h1 : ∀ a ∈ as, a ∈ bs ∨ Py.startsWith a p!"_" = true) (h2 : ∀ b ∈ bs, b ∈ as) : x ∈ as ↔ x ∈ bs :=
  ⟨fun h => (h1 x h).resolve_right (by rw [hx]; nofun), h2 x⟩

theorem mem_hostCls {x : Str} (hx : Py.startsWith x p!"_" = false) :
    (x ∈ hostCls.annotations ∨ x ∈ hostCls.functions ∨ x ∈ hostCls.defaults) ↔ x ∈ hostNames := by
  rw [← List.mem_append, ← List.mem_append]
  exact mem_public hx (by decide) (by decide)

theorem mem_hostFunctions {x : Str} : x ∈ hostCls.functions ↔ x ∈ hostFunctions := by rfl

theorem mem_scriptCls {x : Str} (hx : Py.startsWith x p!"_" = false) :
    (x ∈ scriptCls.annotations ∨ x ∈ scriptCls.functions ∨ x ∈ scriptCls.defaults) ↔ x ∈ scriptNames := by
  rw [← List.mem_append, ← List.mem_append]
  exact mem_public hx (by decide) (by decide)

theorem mem_inventoryCls {x : Str} (hx : Py.startsWith x p!"_" = false) :
    (x ∈ inventoryCls.annotations ∨ x ∈ inventoryCls.functions ∨ x ∈ inventoryCls.defaults) ↔ x ∈ inventoryNames := by
  rw [← List.mem_append, ← List.mem_append]
  exact mem_public hx (by decide) (by decide)

end Verif.Inventory
