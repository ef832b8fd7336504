/-
What a ranking of a graph is.
-/
import Verif.Inventory.Rank

namespace Verif.Inventory

variable {α : Type}

/-- A chain of `n` edges from one vertex to another. -/
inductive Chain (childs : α → List α) : α → α → Nat → Prop
  | here (v : α) : Chain childs v v 0
  | step {a b c : α} {n : Nat} : Chain childs a b n → c ∈ childs b → Chain childs a c (n + 1)

/-- No chain leads back to where it starts. -/
def Acyclic (vertices : List α) (childs : α → List α) : Prop :=
  ∀ v ∈ vertices, ∀ n, Chain childs v v n → n = 0

/-- `n` is the length of the longest chain that ends at `v`. -/
def LongestChain (vertices : List α) (childs : α → List α) (v : α) (n : Nat) : Prop :=
  (∃ a ∈ vertices, Chain childs a v n) ∧ ∀ a ∈ vertices, ∀ m, Chain childs a v m → m ≤ n

/-- A graph given by successors and predecessors: both lists agree and lead to vertices. -/
structure Graph (vertices : List α) (preds childs : α → List α) : Prop where
  agree : ∀ a ∈ vertices, ∀ b ∈ vertices, b ∈ childs a ↔ a ∈ preds b
  childs : ∀ a ∈ vertices, ∀ b ∈ childs a, b ∈ vertices
  preds : ∀ a ∈ vertices, ∀ b ∈ preds a, b ∈ vertices

/-- The function returns or raises this, after some number of iterations and any greater number. -/
def Yields {β : Type} (f : Nat → Option β) (x : β) : Prop := ∃ n, ∀ m, n ≤ m → f m = some x

end Verif.Inventory
