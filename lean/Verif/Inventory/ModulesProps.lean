/-
C89: modules are found by name below the inventory.
-/
import Verif.Inventory.ModulesLemmas
import Verif.Inventory.UrlProps

namespace Verif.Inventory

open Ops

/-- C89: the module of a group is the file with its name in the directory of groups, that of a host the file with its name in the
directory of hosts. What is missing: names that begin with a slash, see `C89_inside_refuted`. -/
theorem C89_paths_partial (l : Layout) (hl : l.Usual) (name : Str) (hn : name.head? ≠ some 47) :
    l.groupModuleFile name = l.base ++ p!"/" ++ l.groupsDir ++ p!"/" ++ name ++ p!".py"
    ∧ l.hostModuleFile name = l.base ++ p!"/" ++ l.hostsDir ++ p!"/" ++ name ++ p!".py" :=
  ⟨moduleIn_eq hl.base hl.groupsDir hn, moduleIn_eq hl.base hl.hostsDir hn⟩

/-- C89: without further declarations the directories are `groups` and `hosts`, next to the inventory. -/
theorem C89_default_partial (base name : Str) (hb : base ≠ []) (hs : base.getLast? ≠ some 47) (hn : name.head? ≠ some 47) :
    Layout.groupModuleFile { base } name = base ++ p!"/groups/" ++ name ++ p!".py"
    ∧ Layout.hostModuleFile { base } name = base ++ p!"/hosts/" ++ name ++ p!".py" := by
  have hg : Below p!"groups" := ⟨by decide, by decide, by decide⟩
  have hh : Below p!"hosts" := ⟨by decide, by decide, by decide⟩
  have h := C89_paths_partial { base } ⟨⟨hb, hs⟩, hg, hh⟩ name hn
  simpa using h

theorem split_slash {a a' b b' : Str} (h : a ++ p!"/" ++ b = a' ++ p!"/" ++ b') (hb : 47 ∉ b) (hb' : 47 ∉ b') : a = a' ∧ b = b' := by
  have hr := congrArg List.reverse h
  simp only [List.reverse_append, List.append_assoc] at hr
  have key : ∀ (x x' y y' : Str), 47 ∉ x → 47 ∉ x' → x ++ (47 :: y) = x' ++ (47 :: y') → x = x' ∧ y = y' := by
    intro x
    induction x with
    | nil =>
      intro x' y y' _ hx' he
      cases x' with
      | nil => simpa using he
      | cons c r =>
        simp only [List.nil_append, List.cons_append, List.cons.injEq] at he
        exact absurd (by rw [← he.1]; simp) hx'
    | cons c x ih =>
      intro x' y y' hx hx' he
      cases x' with
      | nil =>
        simp only [List.nil_append, List.cons_append, List.cons.injEq] at he
        exact absurd (by rw [he.1]; simp) hx
      | cons c' r =>
        simp only [List.cons_append, List.cons.injEq] at he
        obtain ⟨h1, h2⟩ := ih r y y' (fun hm => hx (by simp [hm])) (fun hm => hx' (by simp [hm])) he.2
        exact ⟨by rw [he.1, h1], h2⟩
  obtain ⟨h1, h2⟩ := key b.reverse b'.reverse a.reverse a'.reverse (by simpa using hb) (by simpa using hb') (by simpa using hr)
  exact ⟨List.reverse_inj.mp h2, List.reverse_inj.mp h1⟩

/-- C89: no two hosts and no two groups share a module, and if their directories differ no host has that of a group. -/
theorem C89_distinct (l : Layout) (hl : l.Usual) (a b : Str) (ha : 47 ∉ a) (hb : 47 ∉ b) :
    (l.groupModuleFile a = l.groupModuleFile b → a = b) ∧ (l.hostModuleFile a = l.hostModuleFile b → a = b)
    ∧ (l.groupModuleFile a = l.hostModuleFile b → a = b ∧ l.groupsDir = l.hostsDir) := by
  have hs : ∀ x : Str, 47 ∉ x → x.head? ≠ some 47 := fun x hx h => hx (List.mem_of_mem_head? h)
  have hp : ∀ x : Str, 47 ∉ x → 47 ∉ x ++ p!".py" := fun x hx => by simpa using hx
  obtain ⟨ga, _⟩ := C89_paths_partial l hl a (hs a ha)
  obtain ⟨gb, hb'⟩ := C89_paths_partial l hl b (hs b hb)
  obtain ⟨_, ha'⟩ := C89_paths_partial l hl a (hs a ha)
  have hfin : ∀ d d' : Str, l.base ++ p!"/" ++ d ++ p!"/" ++ a ++ p!".py" = l.base ++ p!"/" ++ d' ++ p!"/" ++ b ++ p!".py" → a = b ∧ d = d' := by
    intro d d' h
    have h' : (l.base ++ p!"/" ++ d) ++ p!"/" ++ (a ++ p!".py") = (l.base ++ p!"/" ++ d') ++ p!"/" ++ (b ++ p!".py") := by
      rw [← List.append_assoc, ← List.append_assoc]; exact h
    obtain ⟨h1, h2⟩ := split_slash h' (hp a ha) (hp b hb)
    exact ⟨List.append_cancel_right h2, List.append_cancel_left h1⟩
  rw [ga, gb, ha', hb']
  exact ⟨fun h => (hfin _ _ h).1, fun h => (hfin _ _ h).1, fun h => hfin _ _ h⟩

/-- C89: loading an inventory executes no other file than the modules of its hosts and of their groups: any other file may be
there or not, and have any content. -/
theorem C89_only_modules (l : Layout) (hl : l.Usual) (files files' : Str → Option Body) (inventory : Wrapper) (so : SetOrder) (c : Str → Consts) (heap : Heap)
    (es : List (Entry HostDecl)) (groups : Option (List (Entry GroupDecl)))
    (hn : ∀ d, Yields (fun fuel => declare fuel so es groups) (.ok d) → (∀ h ∈ d.hosts, h.1.head? ≠ some 47) ∧ ∀ g ∈ d.groups, g.1.head? ≠ some 47)
    (h : ∀ d, Yields (fun fuel => declare fuel so es groups) (.ok d) → ∀ p, ModuleFile l d p → files p = files' p) (fuel : Nat) :
    load fuel so (l.sources files inventory) c heap es groups = load fuel so (l.sources files' inventory) c heap es groups := by
  unfold load
  cases hd : declare fuel so es groups with
  | none => rfl
  | some r =>
    cases r with
    | error e => rfl
    | ok d =>
      have hy : Yields (fun fuel => declare fuel so es groups) (.ok d) := ⟨fuel, fun m hm => declare_mono hd hm⟩
      obtain ⟨res, hres, hspec⟩ := declare_spec so es groups
      have : res = .ok d := by
        obtain ⟨n, h1⟩ := hres
        obtain ⟨m, h2⟩ := hy
        have h3 := h1 (max n m) (Nat.le_max_left _ _)
        have h4 := h2 (max n m) (Nat.le_max_right _ _)
        exact Option.some.inj (h3.symm.trans h4)
      subst this
      obtain ⟨ds, _, _, hda⟩ := hspec
      obtain ⟨hn1, hn2⟩ := hn d hy
      simp only [Option.map_some, bind, Except.bind]
      refine congrArg some (instanciateHosts_congr (src := l.sources files inventory) (src' := l.sources files' inventory) rfl ?_)
      rintro ⟨name, decl⟩ hh
      refine ⟨hostFile_congr hl (hn1 _ hh) (h d hy _ (.host hh)), fun g hg gd hgd => ?_⟩
      have hm := lookup_mem hgd
      rw [(hda.item g gd hm).1]
      exact groupFile_congr hl (hn2 _ hm) (h d hy _ (.group hh hg hm))

/-- C89: a file that a declaration gives explicitly must exist, otherwise the inventory is not loaded. -/
theorem C89_explicit (l : Layout) (hl : l.Usual) (files : Str → Option Body) (inventory : Wrapper) (so : SetOrder) (c : Str → Consts) (heap heap' : Heap)
    (es : List (Entry HostDecl)) (groups : Option (List (Entry GroupDecl))) (hosts : List (Str × Host))
    (hy : Yields (fun fuel => load fuel so (l.sources files inventory) c heap es groups) (.ok (heap', hosts))) :
    ∃ d, Yields (fun fuel => declare fuel so es groups) (.ok d)
      ∧ ∀ name decl, (name, decl) ∈ d.hosts → (∀ f, decl.file = some f → (files (explicitFile l.base f)).isSome = true)
        ∧ ∀ g ∈ decl.groups, ∀ gd, (g, gd) ∈ d.groups → ∀ f, gd.file = some f → (files (explicitFile l.base f)).isSome = true := by
  obtain ⟨d, hd, heach⟩ := C59_load hy
  refine ⟨d, hd, fun name decl hh => ?_⟩
  have : ∀ {hs : Decls HostDecl} {r : List (Str × Host)},
      Each (fun nd nh => nd.1 = nh.1 ∧ LoadedHost so (l.sources files inventory) (c nd.1) es groups d nd.1 nd.2 nh.2) hs r → (name, decl) ∈ hs →
      ∃ h, LoadedHost so (l.sources files inventory) (c name) es groups d name decl h := by
    intro hs r he
    induction he with
    | nil => intro h; cases h
    | cons h1 h2 ih =>
      intro hm
      rcases List.mem_cons.mp hm with rfl | hm
      · exact ⟨_, h1.2⟩
      · exact ih hm
  obtain ⟨h, hl'⟩ := this heach hh
  obtain ⟨heap1, heap2, hi⟩ := hl'.loaded
  obtain ⟨hkeys, _, _⟩ := hl'.keyed
  obtain ⟨ld, h1, _, h2⟩ := instanciateHost_ok hi
  constructor
  · intro f hf
    unfold loadHost at h2
    rw [moduleFile_sources hl, hf] at h2
    cases hx : files (explicitFile l.base f) with
    | some b => rfl
    | none => simp [hx, bind, Except.bind] at h2
  · intro g hg gd hgd f hf
    obtain ⟨res, hres, hspec⟩ := declare_spec so es groups
    have : res = .ok d := by
      obtain ⟨n, k1⟩ := hres
      obtain ⟨m, k2⟩ := hd
      have k3 := k1 (max n m) (Nat.le_max_left _ _)
      have k4 := k2 (max n m) (Nat.le_max_right _ _)
      exact Option.some.inj (k3.symm.trans k4)
    subst this
    obtain ⟨ds, _, _, hda⟩ := hspec
    have hmem : g ∈ groupsInOrder d decl := by
      unfold groupsInOrder
      rw [List.mem_filter, hda.order.perm.mem_iff]
      exact ⟨List.mem_map.mpr ⟨_, hgd, rfl⟩, decide_eq_true hg⟩
    obtain ⟨g1, g2, he⟩ := List.append_of_mem hmem
    rw [he] at h1
    obtain ⟨l1, _, h4⟩ := loadGroups_append h1
    obtain ⟨l2, h5, _⟩ := loadGroups_cons h4
    obtain ⟨gd', h6, h7, _⟩ := loadNext_ok h5
    rw [lookup_of_mem hda.nodup hgd] at h6
    cases h6
    unfold loadGroup at h7
    rw [moduleFile_sources hl, hf] at h7
    cases hx : files (explicitFile l.base f) with
    | some b => rfl
    | none => simp [hx, bind, Except.bind] at h7

/-- C89 does not hold for every name: that of a host may be an absolute path, also if it comes from its url. Its module is then a
file anywhere, whatever the directories of the inventory are. -/
theorem C89_inside_refuted (l : Layout) : extractHostname p!"local:/tmp/web" = .ok p!"/tmp/web" ∧ l.hostModuleFile p!"/tmp/web" = p!"/tmp/web.py" :=
  ⟨C65_local p!"/tmp/web", rfl⟩

namespace Example

/-- An inventory in `/deploy`. -/
def layout : Layout := { base := p!"/deploy" }

theorem layout_usual : layout.Usual := ⟨by decide, ⟨by decide, by decide, by decide⟩, ⟨by decide, by decide, by decide⟩⟩

/-- Some files: modules for the group `all` and the host `web`, one with another name, and one that is not part of the inventory. -/
def files (p : Str) : Option Body :=
  if p = p!"/deploy/groups/all.py" then some (assignment p!"x" 10)
  else if p = p!"/deploy/hosts/web.py" then some (assignment p!"y" 11)
  else if p = p!"/deploy/special.py" then some (assignment p!"y" 12)
  else if p = p!"/deploy/hosts/mail.py" then some (assignment p!"y" 13)
  else none

def fileHosts : List (Entry HostDecl) := [.str p!"root@web", .dict (some { name := some p!"db", file := some p!"special.py" })]

example : values [p!"x", p!"y"] (load 6 setOrder (layout.sources files inventoryWrapper) consts (fun n => n) fileHosts none)
    = some [[some 10, some 11], [some 10, some 12]] := by
  decide +kernel

/-- A file that is given explicitly but does not exist. -/
example : values [p!"x"] (load 6 setOrder (layout.sources files inventoryWrapper) consts (fun n => n)
    [.dict (some { name := some p!"db", file := some p!"missing.py" })] none) = none := by
  decide +kernel

end Example

end Verif.Inventory
