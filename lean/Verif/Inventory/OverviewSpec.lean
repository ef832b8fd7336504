/-
What the screen is to show of an inventory.
-/
import Verif.Inventory.Overview
import Verif.Inventory.TableProps

namespace Verif.Inventory

open Run

/-- A heading as wide as the terminal, which counts as at least 80 characters wide. -/
def headingText (terminal : Nat) (left right : Str) : Str := left ++ List.replicate (max terminal 80 - (left.length + right.length)) 9472 ++ right

/-- Names and texts are no control sequences. -/
structure Texts.Readable (t : Texts) (order : List Str) (hosts : List (Str × Host)) (vars : Vars) : Prop where
  inventory : isAnsi t.inventory = false
  groups : ∀ g ∈ order, isAnsi g = false
  hostNames : ∀ h ∈ hosts, isAnsi h.1 = false
  variables : ∀ kv ∈ vars.items, isAnsi kv.1 = false
  rows : ∀ h ∈ hosts, ∀ rows, inspectHost order h.1 h.2 = .ok rows → ∀ r ∈ rows, r.Plain t.varColour t.typeName t.valueColour t.valueText

/-- What is shown of a host: an empty line, a heading with its name and where its module is, and the table of its variables (C85, C86). -/
def Section (terminal : Nat) (t : Texts) (order : List Str) (h : Str × Host) (lines : List Str) : Prop :=
  ∃ rows, ∃ w₁ w₂ w₃ w₄ : Nat, inspectHost order h.1 h.2 = .ok rows ∧ 24 ≤ w₁ ∧ 12 ≤ w₃
    ∧ lines = [] :: headingText terminal (p!"──────── host " ++ h.1 ++ p!" ") (p!" " ++ t.hostPlace h.2)
      :: plainLine [w₁, w₂, w₃, w₄] headings :: ruleText [w₁, w₂, w₃, w₄] :: rows.map fun r => plainLine [w₁, w₂, w₃, w₄] (r.columns t.typeName t.valueText)

/-- The line of the group number `n`. -/
def groupText (n : Nat) (g : Str) : Str := p!"  - (" ++ Py.natStr 10 n ++ p!") " ++ g

/-- The line of a host. -/
def hostText (t : Texts) (h : Str × Host) : Str := p!"  - " ++ h.1 ++ p!" (" ++ t.url h.2 ++ p!", " ++ t.hostPlace h.2 ++ p!")"

/-- The line of a variable of the inventory. -/
def globalText (t : Texts) (v : Str × Obj) : Str := v.1 ++ p!"\t(type " ++ t.globalType v.2 ++ p!") = " ++ t.globalValue v.2

end Verif.Inventory
