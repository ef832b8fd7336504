/-
C72: hosts do not influence each other.
-/
import Verif.Inventory.ConflictProps

namespace Verif.Inventory

/-- The module leaves all objects that exist as they are. -/
def LeavesObjects (b : Body) : Prop := ∀ heap vs heap' vs', b heap vs = .ok (heap', vs') → heap' = heap

theorem Ran.heap {b : Option Body} {heap heap' : Heap} {vs vs' : Vars} (h : Ran b heap vs heap' vs') (hb : ∀ code, b = some code → LeavesObjects code) : heap' = heap := by
  cases b with
  | none => exact h.1
  | some code => exact hb code rfl _ _ _ _ h

theorem bodyOf_leaves {src : Sources} {default : Option Body} {file : Option Str} (hf : ∀ f b, src.file f = some b → LeavesObjects b)
    (hd : ∀ b, default = some b → LeavesObjects b) : ∀ code, bodyOf src default file = some code → LeavesObjects code := by
  intro code h
  cases file with
  | none => exact hd code h
  | some f => exact hf f code h

theorem loadGroups_heap {src : Sources} {c : Consts} {d : Declared} (hg : ∀ g b, src.groupFile g = some b → LeavesObjects b)
    (hf : ∀ f b, src.file f = some b → LeavesObjects b) : ∀ {gs : List Str} {l l' : Loading}, loadGroups src c d l gs = .ok l' → l'.heap = l.heap
  | [], l, l', h => by cases h; rfl
  | g :: gs, l, l', h => by
    obtain ⟨m, h1, h2⟩ := loadGroups_cons h
    obtain ⟨gd, _, h3, _⟩ := loadNext_ok h1
    obtain ⟨vs, vs', h4, _⟩ := loadGroup_ok h3
    rw [loadGroups_heap hg hf h2]
    exact h4.heap (bodyOf_leaves hf (hg gd.name))

theorem instanciateHost_heap {src : Sources} {c : Consts} {d : Declared} {heap heap' : Heap} {name : Str} {decl : HostDecl} {h : Host}
    (hg : ∀ g b, src.groupFile g = some b → LeavesObjects b) (hh : ∀ n b, src.hostFile n = some b → LeavesObjects b)
    (hf : ∀ f b, src.file f = some b → LeavesObjects b) (hi : instanciateHost src c d heap name decl = .ok (heap', h)) : heap' = heap := by
  obtain ⟨l, h1, _, h2⟩ := instanciateHost_ok hi
  obtain ⟨g, g', m, h3, _⟩ := loadHost_ok h2
  rw [h3.heap (bodyOf_leaves hf (hh name)), loadGroups_heap hg hf h1]

/-- C72, for modules that do not change objects in place: every host is what it would be if it were instantiated first, whatever the
other hosts are. -/
theorem C72_isolated_partial {so : SetOrder} {src : Sources} {c : Str → Consts} {heap heap' : Heap} {es : List (Entry HostDecl)}
    {groups : Option (List (Entry GroupDecl))} {hosts : List (Str × Host)} (hg : ∀ g b, src.groupFile g = some b → LeavesObjects b)
    (hh : ∀ n b, src.hostFile n = some b → LeavesObjects b) (hf : ∀ f b, src.file f = some b → LeavesObjects b)
    (hy : Yields (fun fuel => load fuel so src c heap es groups) (.ok (heap', hosts))) :
    heap' = heap ∧ ∃ d, Yields (fun fuel => declare fuel so es groups) (.ok d)
      ∧ Each (fun nd nh => nd.1 = nh.1 ∧ instanciateHost src (c nd.1) d heap nd.1 nd.2 = .ok (heap, nh.2)) d.hosts hosts := by
  obtain ⟨d, ⟨n, h1⟩, _⟩ := C59_load hy
  obtain ⟨m, h2⟩ := hy
  have h3 := h1 (max n m) (Nat.le_max_left _ _)
  have h4 := h2 (max n m) (Nat.le_max_right _ _)
  simp only [load] at h4
  simp only at h3
  rw [h3] at h4
  simp only [Option.map, bind, Except.bind, Option.some.injEq] at h4
  have key : ∀ {hs : Decls HostDecl} {heap' : Heap} {r : List (Str × Host)}, instanciateHosts src c d heap hs = .ok (heap', r) →
      heap' = heap ∧ Each (fun nd nh => nd.1 = nh.1 ∧ instanciateHost src (c nd.1) d heap nd.1 nd.2 = .ok (heap, nh.2)) hs r := by
    intro hs
    induction hs with
    | nil => intro heap' r h; cases h; exact ⟨rfl, .nil⟩
    | cons x hs ih =>
      obtain ⟨nm, dl⟩ := x
      intro heap' r h
      rw [instanciateHosts] at h
      simp only [bind, Except.bind] at h
      cases h5 : instanciateHost src (c nm) d heap nm dl with
      | error e => rw [h5] at h; cases h
      | ok y =>
        obtain ⟨heap1, h0⟩ := y
        have := instanciateHost_heap hg hh hf h5
        subst this
        rw [h5] at h
        simp only at h
        cases h6 : instanciateHosts src c d heap1 hs with
        | error e => rw [h6] at h; cases h
        | ok z =>
          obtain ⟨heap2, r'⟩ := z
          rw [h6] at h
          cases h
          obtain ⟨h7, h8⟩ := ih h6
          exact ⟨h7, .cons ⟨rfl, h5⟩ h8⟩
  obtain ⟨h5, h6⟩ := key h4
  exact ⟨h5, d, ⟨n, h1⟩, h6⟩

open Example in
/-- The hypotheses are met by modules that assign variables. -/
example : ∃ hosts, (∀ g b, sources.groupFile g = some b → LeavesObjects b)
    ∧ Yields (fun fuel => load fuel setOrder sources consts (fun n => n) loadHosts (some Example.groups)) (.ok (fun n => n, hosts)) := by
  have hl : ∀ x v, LeavesObjects (assignment x v) := by
    intro x v heap vs heap' vs' h
    cases h
    rfl
  have hg : ∀ g b, sources.groupFile g = some b → LeavesObjects b := by
    intro g b h
    simp only [sources] at h
    split at h
    · cases h; exact hl _ _
    · split at h
      · cases h; exact hl _ _
      · split at h
        · cases h; exact hl _ _
        · cases h
  have hh : ∀ g b, sources.hostFile g = some b → LeavesObjects b := by
    intro g b h
    simp only [sources] at h
    split at h
    · cases h; exact hl _ _
    · cases h
  obtain ⟨heap', hosts, h1, _⟩ := accepted_of (so := setOrder) (src := sources) (c := consts) (heap := fun n => n) (es := loadHosts)
    (groups := some Example.groups) (x := p!"x") (values := [some 13, some 11]) 6 (by decide +kernel)
  have := (C72_isolated_partial hg hh (fun f b h => by cases h) h1).1
  subst this
  exact ⟨hosts, hg, h1⟩

namespace Example

/-- An inventory with a variable `users`, a list. -/
def sharedInventory : Wrapper :=
  { cls := inventoryCls, classAttr := fun _ => ⟨0, false⟩
    module := some { obj := ⟨1, true⟩, attrs := ({} : Vars).set p!"users" ⟨3, false⟩ } }

/-- The module of the host `web` appends to the list `users`. -/
def appending : Sources where
  groupFile _ := none
  hostFile h := if h = p!"web" then some fun heap vs => .ok (fun m => if m = 3 then heap 3 + 1 else heap m, vs) else none
  file _ := none
  inventory := sharedInventory

end Example

open Example in
/-- C72 does not hold in general: the variables of the inventory are shared by all hosts. If the module of `web` appends to such a
list, the host `db` sees the new element, too, if and only if `web` is part of the inventory. -/
theorem C72_isolated_refuted :
    Accepted setOrder appending consts (fun n => n) [.str p!"web", .str p!"db"] none p!"users" [some 4, some 4]
    ∧ Accepted setOrder appending consts (fun n => n) [.str p!"db"] none p!"users" [some 3] :=
  ⟨accepted_of 6 (by decide +kernel), accepted_of 6 (by decide +kernel)⟩

end Verif.Inventory
