/-
C55 to C58: the order of groups and the names in an inventory.
-/
import Verif.Inventory.DeclareLemmas

namespace Verif.Inventory

/-! ### C55 -/

/-- C55, sorting: for every finite graph `rank_sort` comes to an end. It returns the length of the longest chain that ends at each
vertex if the graph has no cycle, and raises `CycleError` if it has one. -/
theorem C55_rank_sort {α : Type} [DecidableEq α] (vertices : List α) (preds childs : α → List α) (hg : Graph vertices preds childs) :
    (Acyclic vertices childs → ∃ ranks, Yields (fun fuel => rankSort fuel vertices preds childs) (.ok ranks)
      ∧ ∀ v ∈ vertices, ∃ n : Nat, ranks v = n ∧ LongestChain vertices childs v n)
    ∧ (¬ Acyclic vertices childs → ∃ cycle, Yields (fun fuel => rankSort fuel vertices preds childs) (.error (.cycle cycle))) := by
  obtain ⟨res, h1, h2⟩ := rankSort_spec hg (vertices.length + 1) (Nat.lt_succ_self _)
  constructor
  · intro hac
    cases res with
    | ok ranks =>
      refine ⟨ranks, ⟨_, fun m hm => rankSort_mono h1 hm⟩, fun v hv => ?_⟩
      obtain ⟨h3, h4⟩ := h2.1 v hv
      exact ⟨(ranks v).toNat, by omega, h4⟩
    | error e => cases e with
      | cycle c => exact absurd hac h2
      | keyError => exact h2.elim
  · intro hcy
    cases res with
    | ok ranks => exact absurd h2.2.2 hcy
    | error e => cases e with
      | cycle c => exact ⟨c, ⟨_, fun m hm => rankSort_mono h1 hm⟩⟩
      | keyError => exact h2.elim

/-- A diamond with a longer side, given in reverse order. -/
def Example.childs : Nat → List Nat
  | 0 => [1, 2]
  | 1 => [3]
  | 3 => [2]
  | _ => []

def Example.preds : Nat → List Nat
  | 1 => [0]
  | 2 => [0, 3]
  | 3 => [1]
  | _ => []

example : Graph [3, 2, 1, 0] Example.preds Example.childs
    ∧ (match rankSort 5 [3, 2, 1, 0] Example.preds Example.childs with
      | some (.ok ranks) => some ([0, 1, 2, 3].map ranks)
      | _ => none) = some [0, 1, 3, 2] := by
  refine ⟨⟨by decide, by decide, by decide⟩, by decide +kernel⟩

/-- C55, inventories: the groups are put into an order that respects all constraints exactly if there is such an order. Every
group is in it once. The rank of a group is the greatest number of constraints in a row that end at it. -/
theorem C55_order (so : SetOrder) (es : List (Entry HostDecl)) (gs : List (Entry GroupDecl)) (ds : List GroupDecl)
    (hds : Each (fun e d => e.group = .ok d) gs ds) (d : Declared) (hd : Yields (fun fuel => declare fuel so es (some gs)) (.ok d)) :
    d.order.order.Nodup ∧ (∀ g, g ∈ d.order.order ↔ GroupName ds g)
    ∧ (∀ a b, MustPrecede ds a b → InOrder d.order.order a b)
    ∧ ∀ g, GroupName ds g → ∃ n : Nat, d.order.ranksMin g = n ∧ LongestRow ds g n := by
  obtain ⟨res, hres, hspec⟩ := declare_spec so es (some gs)
  have : res = .ok d := by
    obtain ⟨n, h1⟩ := hres
    obtain ⟨m, h2⟩ := hd
    have h3 := h1 (max n m) (Nat.le_max_left _ _)
    have h4 := h2 (max n m) (Nat.le_max_right _ _)
    exact Option.some.inj (h3.symm.trans h4)
  subst this
  obtain ⟨ds', hds', _, hda⟩ := hspec
  have : ds' = ds := Each.det (fun a b b' h1 h2 => by rw [h1] at h2; cases h2; rfl) hds' hds
  subst this
  have hperm := hda.order.perm
  refine ⟨hperm.nodup_iff.mpr hda.nodup, fun g => by rw [hperm.mem_iff, hda.names], fun a b hab => ?_, hda.order.min⟩
  obtain ⟨ha, hb⟩ := hda.valid.known a b hab
  refine inOrder_of_pairwise hda.order.sorted (by rw [hperm.mem_iff, hda.names]; exact ha) (by rw [hperm.mem_iff, hda.names]; exact hb) ?_
  obtain ⟨n, h1, ⟨x, hx⟩, _⟩ := hda.order.min a ha
  obtain ⟨m, h3, _, hmax⟩ := hda.order.min b hb
  have := hmax x _ (.step hx hab)
  omega

/-- C55, rejection: if some group has to be loaded before itself, loading fails. -/
theorem C55_cycle_rejected (so : SetOrder) (es : List (Entry HostDecl)) (gs : List (Entry GroupDecl)) (ds : List GroupDecl)
    (hds : Each (fun e d => e.group = .ok d) gs ds) (g : Str) (n : Nat) (hcy : Precedes ds g g (n + 1)) :
    ∃ e, Yields (fun fuel => declare fuel so es (some gs)) (.error e) := by
  obtain ⟨res, hres, hspec⟩ := declare_spec so es (some gs)
  cases res with
  | error e => exact ⟨e, hres⟩
  | ok d =>
    obtain ⟨ds', hds', _, hda⟩ := hspec
    have : ds' = ds := Each.det (fun a b b' h1 h2 => by rw [h1] at h2; cases h2; rfl) hds' hds
    subst this
    exact absurd hcy (hda.valid.acyclic g n)

/-! ### C57 -/

/-- C57: loading the declarations succeeds exactly if they are consistent: all names are unique, all groups that are mentioned
exist, and no group has to be loaded before itself. Otherwise an exception is raised. -/
theorem C57_loads_iff_valid (so : SetOrder) (es : List (Entry HostDecl)) (groups : Option (List (Entry GroupDecl))) :
    ((∃ ds, DeclaresGroups es groups ds ∧ ValidGroups ds ∧ ValidHosts es ds) → ∃ d, Yields (fun fuel => declare fuel so es groups) (.ok d))
    ∧ ((¬ ∃ ds, DeclaresGroups es groups ds ∧ ValidGroups ds ∧ ValidHosts es ds) → ∃ e, Yields (fun fuel => declare fuel so es groups) (.error e)) := by
  obtain ⟨res, hres, hspec⟩ := declare_spec so es groups
  cases res with
  | ok d =>
    obtain ⟨ds, h1, h2, h3⟩ := hspec
    exact ⟨fun _ => ⟨d, hres⟩, fun h => absurd ⟨ds, h1, h3.valid, h2⟩ h⟩
  | error e => exact ⟨fun h => absurd h hspec, fun _ => ⟨e, hres⟩⟩

/-- C57: declarations that are rejected (for whatever reason: a duplicate, an unknown group, a cycle, a url without a host) are rejected with a `ValueError`, unless
a dictionary has a key that is not a field of a declaration, or lacks the name of the group. -/
theorem C57_value_error (so : SetOrder) (es : List (Entry HostDecl)) (groups : Option (List (Entry GroupDecl))) (hes : ∀ x ∈ es, x ≠ .dict none)
    (hgs : ∀ gs, groups = some gs → ∀ x ∈ gs, x ≠ .dict none) (e : Exn) (h : Yields (fun fuel => declare fuel so es groups) (.error e)) :
    ∃ m, e = .valueError m := declare_error hes hgs h

/-- C57: no two hosts and no two groups of a loaded inventory have the same name, its hosts are those declared, in order, and all
groups of a host exist. -/
theorem C57_names (so : SetOrder) (es : List (Entry HostDecl)) (groups : Option (List (Entry GroupDecl))) (d : Declared)
    (hd : Yields (fun fuel => declare fuel so es groups) (.ok d)) :
    (d.hosts.map (·.1)).Nodup ∧ (d.groups.map (·.1)).Nodup
    ∧ Each (fun e h => ∃ gs, Names e h.1 gs ∧ ∀ g ∈ gs, g ∈ h.2.groups) es d.hosts
    ∧ ∀ h ∈ d.hosts, ∀ g ∈ h.2.groups, g ∈ d.groups.map (·.1) := by
  obtain ⟨res, hres, hspec⟩ := declare_spec so es groups
  have : res = .ok d := by
    obtain ⟨n, h1⟩ := hres
    obtain ⟨m, h2⟩ := hd
    have h3 := h1 (max n m) (Nat.le_max_left _ _)
    have h4 := h2 (max n m) (Nat.le_max_right _ _)
    exact Option.some.inj (h3.symm.trans h4)
  subst this
  obtain ⟨ds, _, _, hda⟩ := hspec
  refine ⟨hda.hostNames, hda.nodup, ?_, fun h hh g hg => (hda.names g).mpr (hda.used h hh g hg)⟩
  have := hda.hosts.map_right (S := fun e h => ∃ gs, Names e h.1 gs ∧ ∀ g ∈ gs, g ∈ h.2.groups) (f := id) (fun e h ho => by
    obtain ⟨gs, h1, h2⟩ := ho.name
    exact ⟨gs, h1, fun g hg => (h2 g).mpr (.inl hg)⟩)
  simpa using this

/-! ### C58 -/

/-- C58: every host is in the group `all`. All other groups, except `early-explicits`, are loaded after `all`, whatever is
declared. -/
theorem C58_all_first (so : SetOrder) (es : List (Entry HostDecl)) (groups : Option (List (Entry GroupDecl))) (d : Declared)
    (hd : Yields (fun fuel => declare fuel so es groups) (.ok d)) :
    (∀ h ∈ d.hosts, p!"all" ∈ h.2.groups)
    ∧ ∀ g ∈ d.order.order, g ≠ p!"all" → g ≠ p!"early-explicits" → InOrder d.order.order p!"all" g := by
  obtain ⟨res, hres, hspec⟩ := declare_spec so es groups
  have : res = .ok d := by
    obtain ⟨n, h1⟩ := hres
    obtain ⟨m, h2⟩ := hd
    have h3 := h1 (max n m) (Nat.le_max_left _ _)
    have h4 := h2 (max n m) (Nat.le_max_right _ _)
    exact Option.some.inj (h3.symm.trans h4)
  subst this
  obtain ⟨ds, _, _, hda⟩ := hspec
  have hperm := hda.order.perm
  refine ⟨fun h hh => ?_, fun g hg h1 h2 => ?_⟩
  · obtain ⟨e, _, ho⟩ := hda.hosts.mem_right h hh
    obtain ⟨gs, _, h3⟩ := ho.name
    exact (h3 _).mpr (.inr rfl)
  · have hgn : GroupName ds g := (hda.names g).mp (hperm.mem_iff.mp hg)
    have hmp : MustPrecede ds p!"all" g := by
      rcases hgn with h | h | h
      · obtain ⟨d0, hd0, rfl⟩ := List.mem_map.mp h
        exact .all hd0 h2 h1
      · exact absurd h h1
      · exact absurd h h2
    obtain ⟨ha, hb⟩ := hda.valid.known _ g hmp
    refine inOrder_of_pairwise hda.order.sorted (by rw [hperm.mem_iff, hda.names]; exact ha) hg ?_
    obtain ⟨n, h4, ⟨x, hx⟩, _⟩ := hda.order.min _ ha
    obtain ⟨m, h5, _, hmax⟩ := hda.order.min g hb
    have := hmax x _ (.step hx hmp)
    omega

/-- C58: a group that is declared to be loaded before `all` is not accepted. -/
theorem C58_before_all_rejected (so : SetOrder) (es : List (Entry HostDecl)) (gs : List (Entry GroupDecl)) (ds : List GroupDecl)
    (hds : Each (fun e d => e.group = .ok d) gs ds) (d : GroupDecl) (hd : d ∈ ds) (h1 : d.name ≠ p!"early-explicits") (hb : p!"all" ∈ d.before) :
    ∃ e, Yields (fun fuel => declare fuel so es (some gs)) (.error e) := by
  by_cases h2 : d.name = p!"all"
  · exact C55_cycle_rejected so es gs ds hds p!"all" 0 (.step (.here _) (by have := MustPrecede.before hd h1 hb; rwa [h2] at this))
  · exact C55_cycle_rejected so es gs ds hds p!"all" 1 (.step (.step (.here _) (.all hd h1 h2)) (.before hd h1 hb))

/-! ### C56 -/

theorem setItem_keys_congr {δ : Type} {k : Str} {v : δ} : ∀ {l l' : Decls δ}, l.map (·.1) = l'.map (·.1) → (setItem k v l).map (·.1) = (setItem k v l').map (·.1)
  | [], [], _ => rfl
  | [], x :: l', h => by simp at h
  | x :: l, [], h => by simp at h
  | (a, b) :: l, (a', b') :: l', h => by
    simp only [List.map_cons, List.cons.injEq] at h
    obtain ⟨rfl, h⟩ := h
    rw [setItem, setItem]
    split
    · simp [h]
    · simp [setItem_keys_congr h]

theorem addBuiltin_keys_congr {l l' : Decls GroupDecl} (h : l.map (·.1) = l'.map (·.1)) : (addBuiltin l).map (·.1) = (addBuiltin l').map (·.1) := by
  unfold addBuiltin
  simp only
  have h1 := setItem_keys_congr (k := p!"early-explicits") (v := ({ name := p!"early-explicits" } : GroupDecl)) h
  rw [h1]
  split
  · exact h1
  · rw [List.map_append, List.map_append, h1]

theorem LongestRow.congr {ds ds' : List GroupDecl} (h : ∀ a b, MustPrecede ds a b ↔ MustPrecede ds' a b) {g : Str} {n : Nat} (hl : LongestRow ds g n) : LongestRow ds' g n := by
  obtain ⟨⟨a, ha⟩, hm⟩ := hl
  exact ⟨⟨a, ha.mono fun a b => (h a b).mp⟩, fun a m hp => hm a m (hp.mono fun a b => (h a b).mpr)⟩

theorem LongestRest.congr {ds ds' : List GroupDecl} (h : ∀ a b, MustPrecede ds a b ↔ MustPrecede ds' a b) {g : Str} {n : Nat} (hl : LongestRest ds g n) : LongestRest ds' g n := by
  obtain ⟨⟨a, ha⟩, hm⟩ := hl
  exact ⟨⟨a, ha.mono fun a b => (h a b).mp⟩, fun a m hp => hm a m (hp.mono fun a b => (h a b).mpr)⟩

theorem LongestAll.congr {ds ds' : List GroupDecl} (h : ∀ a b, MustPrecede ds a b ↔ MustPrecede ds' a b) {n : Nat} (hl : LongestAll ds n) : LongestAll ds' n := by
  obtain ⟨⟨a, b, ha⟩, hm⟩ := hl
  exact ⟨⟨a, b, ha.mono fun a b => (h a b).mp⟩, fun a b m hp => hm a b m (hp.mono fun a b => (h a b).mpr)⟩

/-- C56: two inventories that declare the same names in the same order and amount to the same constraints have the same order of
groups, or are both rejected. In particular the order does not depend on the order in which sets are enumerated. -/
theorem C56_same_constraints (so so' : SetOrder) (es : List (Entry HostDecl)) (gs gs' : List (Entry GroupDecl)) (ds ds' : List GroupDecl)
    (hds : Each (fun e d => e.group = .ok d) gs ds) (hds' : Each (fun e d => e.group = .ok d) gs' ds') (hnames : ds.map (·.name) = ds'.map (·.name))
    (hsame : ∀ a b, MustPrecede ds a b ↔ MustPrecede ds' a b) :
    (∃ d d', Yields (fun fuel => declare fuel so es (some gs)) (.ok d) ∧ Yields (fun fuel => declare fuel so' es (some gs')) (.ok d') ∧ d.order = d'.order)
    ∨ ∃ e e', Yields (fun fuel => declare fuel so es (some gs)) (.error e) ∧ Yields (fun fuel => declare fuel so' es (some gs')) (.error e') := by
  have hgn : ∀ g, GroupName ds g ↔ GroupName ds' g := fun g => by unfold GroupName; rw [hnames]
  have hvh : ValidHosts es ds ↔ ValidHosts es ds' := by
    unfold ValidHosts
    simp only [hgn]
  obtain ⟨res, hres, hspec⟩ := declare_spec so es (some gs)
  obtain ⟨res', hres', hspec'⟩ := declare_spec so' es (some gs')
  have hdet : ∀ {gs : List (Entry GroupDecl)} {ds ds' : List GroupDecl}, Each (fun e d => e.group = .ok d) gs ds → Each (fun e d => e.group = .ok d) gs ds' → ds = ds' :=
    fun h h' => Each.det (fun a b b' h1 h2 => by rw [h1] at h2; cases h2; rfl) h h'
  cases res with
  | error e =>
    cases res' with
    | error e' => exact .inr ⟨e, e', hres, hres'⟩
    | ok d' =>
      obtain ⟨x, hx, hv, hda⟩ := hspec'
      have := hdet hx hds'
      subst this
      exact absurd ⟨ds, hds, hda.valid.congr (by rw [hnames]; exact hda.valid.names) (fun g => (hgn g).symm) (fun a b => (hsame a b).symm), hvh.mpr hv⟩ hspec
  | ok d =>
    obtain ⟨x, hx, hv, hda⟩ := hspec
    have := hdet hx hds
    subst this
    cases res' with
    | error e' =>
      exact absurd ⟨ds', hds', hda.valid.congr (by rw [← hnames]; exact hda.valid.names) hgn hsame, hvh.mp hv⟩ hspec'
    | ok d' =>
      obtain ⟨x', hx', hv', hda'⟩ := hspec'
      have := hdet hx' hds'
      subst this
      refine .inl ⟨d, d', hres, hres', ?_⟩
      refine OrderOf.unique (ds := x') (names := d'.groups.map (·.1)) ?_ hda'.order
      have h0 := hda.order
      have hk : d.groups.map (·.1) = d'.groups.map (·.1) := by
        rw [hda.groups, hda'.groups]
        exact addBuiltin_keys_congr (by rw [normalized_fst, normalized_fst, hnames])
      rw [hk] at h0
      refine ⟨fun g hg => ?_, fun g hg => ?_, fun g hg => h0.minOut g (fun h => hg ((hgn g).mp h)), fun g hg => ?_, h0.order⟩
      · obtain ⟨n, h1, h2⟩ := h0.min g ((hgn g).mpr hg)
        exact ⟨n, h1, h2.congr hsame⟩
      · obtain ⟨n, k, h1, h2, h3⟩ := h0.max g ((hgn g).mpr hg)
        exact ⟨n, k, h1, h2.congr hsame, h3.congr hsame⟩
      · obtain ⟨n, h1, h2⟩ := h0.maxOut g (fun h => hg ((hgn g).mp h))
        exact ⟨n, h1, h2.congr hsame⟩

/-- The declarations, with the addition that `a` is before `b`, written at `a`. -/
def withBefore (a b : Str) (ds : List GroupDecl) : List GroupDecl := ds.map fun d => if d.name = a then { d with before := b :: d.before } else d

/-- The declarations, with the addition that `b` is after `a`, written at `b`. -/
def withAfter (a b : Str) (ds : List GroupDecl) : List GroupDecl := ds.map fun d => if d.name = b then { d with after := a :: d.after } else d

theorem withBefore_precede {a b : Str} {ds : List GroupDecl} (ha : a ∈ ds.map (·.name)) (hae : a ≠ p!"early-explicits") {x y : Str} :
    MustPrecede (withBefore a b ds) x y ↔ MustPrecede ds x y ∨ (x = a ∧ y = b) := by
  have hname : (withBefore a b ds).map (·.name) = ds.map (·.name) := by
    unfold withBefore
    rw [List.map_map]
    exact List.map_congr_left fun d _ => by simp only [Function.comp]; split <;> rfl
  have hmem : ∀ d, d ∈ withBefore a b ds ↔ ∃ d0 ∈ ds, d = if d0.name = a then { d0 with before := b :: d0.before } else d0 := by
    intro d
    unfold withBefore
    rw [List.mem_map]
    constructor
    · rintro ⟨d0, h, rfl⟩; exact ⟨d0, h, rfl⟩
    · rintro ⟨d0, h, rfl⟩; exact ⟨d0, h, rfl⟩
  constructor
  · rintro (⟨h1, h2, h3⟩ | ⟨h1, h2, h3⟩ | ⟨h1, h2, h3⟩ | h)
    · obtain ⟨d0, h4, rfl⟩ := (hmem _).mp h1
      by_cases e : d0.name = a
      · rw [if_pos e] at h2 h3 ⊢
        rcases List.mem_cons.mp h3 with rfl | h3
        · exact .inr ⟨e, rfl⟩
        · exact .inl (.before (d := d0) h4 h2 h3)
      · rw [if_neg e] at h2 h3 ⊢
        exact .inl (.before (d := d0) h4 h2 h3)
    · obtain ⟨d0, h4, rfl⟩ := (hmem _).mp h1
      refine .inl ?_
      by_cases e : d0.name = a
      · rw [if_pos e] at h2 h3 ⊢
        exact .after (d := d0) h4 h2 h3
      · rw [if_neg e] at h2 h3 ⊢
        exact .after (d := d0) h4 h2 h3
    · obtain ⟨d0, h4, rfl⟩ := (hmem _).mp h1
      refine .inl ?_
      by_cases e : d0.name = a
      · rw [if_pos e] at h2 h3 ⊢
        exact .all (d := d0) h4 h2 h3
      · rw [if_neg e] at h2 h3 ⊢
        exact .all (d := d0) h4 h2 h3
    · exact .inl (.early (by rwa [hname] at h))
  · rintro (h | ⟨rfl, rfl⟩)
    · cases h with
      | @before d y h1 h2 h3 =>
        by_cases e : d.name = a
        · exact .before (d := { d with before := b :: d.before }) ((hmem _).mpr ⟨d, h1, by rw [if_pos e]⟩) h2 (by simp [h3])
        · exact .before ((hmem _).mpr ⟨d, h1, by rw [if_neg e]⟩) h2 h3
      | @after d y h1 h2 h3 =>
        by_cases e : d.name = a
        · exact .after (d := { d with before := b :: d.before }) ((hmem _).mpr ⟨d, h1, by rw [if_pos e]⟩) h2 h3
        · exact .after ((hmem _).mpr ⟨d, h1, by rw [if_neg e]⟩) h2 h3
      | @all d h1 h2 h3 =>
        by_cases e : d.name = a
        · exact .all (d := { d with before := b :: d.before }) ((hmem _).mpr ⟨d, h1, by rw [if_pos e]⟩) h2 h3
        · exact .all ((hmem _).mpr ⟨d, h1, by rw [if_neg e]⟩) h2 h3
      | early h => exact .early (by rwa [hname])
    · obtain ⟨d, hd, rfl⟩ := List.mem_map.mp ha
      exact .before (d := { d with before := y :: d.before }) ((hmem _).mpr ⟨d, hd, by rw [if_pos rfl]⟩) hae (by simp)

theorem withAfter_precede {a b : Str} {ds : List GroupDecl} (hb : b ∈ ds.map (·.name)) (hbe : b ≠ p!"early-explicits") {x y : Str} :
    MustPrecede (withAfter a b ds) x y ↔ MustPrecede ds x y ∨ (x = a ∧ y = b) := by
  have hname : (withAfter a b ds).map (·.name) = ds.map (·.name) := by
    unfold withAfter
    rw [List.map_map]
    exact List.map_congr_left fun d _ => by simp only [Function.comp]; split <;> rfl
  have hmem : ∀ d, d ∈ withAfter a b ds ↔ ∃ d0 ∈ ds, d = if d0.name = b then { d0 with after := a :: d0.after } else d0 := by
    intro d
    unfold withAfter
    rw [List.mem_map]
    constructor
    · rintro ⟨d0, h, rfl⟩; exact ⟨d0, h, rfl⟩
    · rintro ⟨d0, h, rfl⟩; exact ⟨d0, h, rfl⟩
  constructor
  · rintro (⟨h1, h2, h3⟩ | ⟨h1, h2, h3⟩ | ⟨h1, h2, h3⟩ | h)
    · obtain ⟨d0, h4, rfl⟩ := (hmem _).mp h1
      refine .inl ?_
      by_cases e : d0.name = b
      · rw [if_pos e] at h2 h3 ⊢
        exact .before (d := d0) h4 h2 h3
      · rw [if_neg e] at h2 h3 ⊢
        exact .before (d := d0) h4 h2 h3
    · obtain ⟨d0, h4, rfl⟩ := (hmem _).mp h1
      by_cases e : d0.name = b
      · rw [if_pos e] at h2 h3 ⊢
        rcases List.mem_cons.mp h3 with rfl | h3
        · exact .inr ⟨rfl, e⟩
        · exact .inl (.after (d := d0) h4 h2 h3)
      · rw [if_neg e] at h2 h3 ⊢
        exact .inl (.after (d := d0) h4 h2 h3)
    · obtain ⟨d0, h4, rfl⟩ := (hmem _).mp h1
      refine .inl ?_
      by_cases e : d0.name = b
      · rw [if_pos e] at h2 h3 ⊢
        exact .all (d := d0) h4 h2 h3
      · rw [if_neg e] at h2 h3 ⊢
        exact .all (d := d0) h4 h2 h3
    · exact .inl (.early (by rwa [hname] at h))
  · rintro (h | ⟨rfl, rfl⟩)
    · cases h with
      | @before d y h1 h2 h3 =>
        by_cases e : d.name = b
        · exact .before (d := { d with after := a :: d.after }) ((hmem _).mpr ⟨d, h1, by rw [if_pos e]⟩) h2 h3
        · exact .before ((hmem _).mpr ⟨d, h1, by rw [if_neg e]⟩) h2 h3
      | @after d y h1 h2 h3 =>
        by_cases e : d.name = b
        · exact .after (d := { d with after := a :: d.after }) ((hmem _).mpr ⟨d, h1, by rw [if_pos e]⟩) h2 (by simp [h3])
        · exact .after ((hmem _).mpr ⟨d, h1, by rw [if_neg e]⟩) h2 h3
      | @all d h1 h2 h3 =>
        by_cases e : d.name = b
        · exact .all (d := { d with after := a :: d.after }) ((hmem _).mpr ⟨d, h1, by rw [if_pos e]⟩) h2 h3
        · exact .all ((hmem _).mpr ⟨d, h1, by rw [if_neg e]⟩) h2 h3
      | early h => exact .early (by rwa [hname])
    · obtain ⟨d, hd, rfl⟩ := List.mem_map.mp hb
      exact .after (d := { d with after := x :: d.after }) ((hmem _).mpr ⟨d, hd, by rw [if_pos rfl]⟩) hbe (by simp)

theorem each_decl (ds : List GroupDecl) : Each (fun e d => Entry.group e = .ok d) (ds.map Entry.decl) ds := by
  induction ds with
  | nil => exact .nil
  | cons x l ih => exact .cons rfl ih

/-- C56: declaring that `a` is before `b` has the same effect as declaring that `b` is after `a`. -/
theorem C56_before_is_after (so so' : SetOrder) (es : List (Entry HostDecl)) (ds : List GroupDecl) (a b : Str) (ha : a ∈ ds.map (·.name)) (hb : b ∈ ds.map (·.name))
    (hae : a ≠ p!"early-explicits") (hbe : b ≠ p!"early-explicits") :
    let f := fun fuel => declare fuel so es (some ((withBefore a b ds).map .decl))
    let f' := fun fuel => declare fuel so' es (some ((withAfter a b ds).map .decl))
    (∃ d d', Yields f (.ok d) ∧ Yields f' (.ok d') ∧ d.order = d'.order) ∨ ∃ e e', Yields f (.error e) ∧ Yields f' (.error e') := by
  refine C56_same_constraints so so' es _ _ _ _ (each_decl _) (each_decl _) ?_ fun x y => ?_
  · unfold withBefore withAfter
    rw [List.map_map, List.map_map]
    exact List.map_congr_left fun d _ => by simp only [Function.comp]; split <;> split <;> rfl
  · rw [withBefore_precede ha hae, withAfter_precede hb hbe]

/-- C56: a group that depends on itself is rejected. -/
theorem C56_self_rejected (so : SetOrder) (es : List (Entry HostDecl)) (gs : List (Entry GroupDecl)) (ds : List GroupDecl)
    (hds : Each (fun e d => e.group = .ok d) gs ds) (d : GroupDecl) (hd : d ∈ ds) (h1 : d.name ≠ p!"early-explicits")
    (hs : d.name ∈ d.before ∨ d.name ∈ d.after) : ∃ e, Yields (fun fuel => declare fuel so es (some gs)) (.error e) := by
  refine C55_cycle_rejected so es gs ds hds d.name 0 (.step (.here _) ?_)
  rcases hs with h | h
  · exact .before hd h1 h
  · exact .after hd h1 h

/-- C56: a reference to a group that is not declared is rejected. -/
theorem C56_unknown_rejected (so : SetOrder) (es : List (Entry HostDecl)) (gs : List (Entry GroupDecl)) (ds : List GroupDecl)
    (hds : Each (fun e d => e.group = .ok d) gs ds) (d : GroupDecl) (hd : d ∈ ds) (h1 : d.name ≠ p!"early-explicits") (g : Str)
    (hg : g ∈ d.before ∨ g ∈ d.after) (hno : ¬ GroupName ds g) : ∃ e, Yields (fun fuel => declare fuel so es (some gs)) (.error e) := by
  refine (C57_loads_iff_valid so es (some gs)).2 ?_
  rintro ⟨ds', h2, h3, _⟩
  have : ds' = ds := Each.det (fun a b b' h1 h2 => by rw [h1] at h2; cases h2; rfl) h2 hds
  subst this
  rcases hg with h | h
  · exact hno (h3.known _ _ (.before hd h1 h)).2
  · exact hno (h3.known _ _ (.after hd h1 h)).1

/-! ### An example -/

def Example.dedup : List Str → List Str
  | [] => []
  | x :: l => if x ∈ Example.dedup l then Example.dedup l else x :: Example.dedup l

theorem Example.mem_dedup {x : Str} : ∀ {l : List Str}, x ∈ Example.dedup l ↔ x ∈ l
  | [] => .rfl
  | y :: l => by
    rw [Example.dedup]
    split
    · rename_i h
      rw [Example.mem_dedup] at h ⊢
      rw [List.mem_cons]
      exact ⟨.inr, fun h' => h'.elim (fun e => e ▸ h) id⟩
    · rw [List.mem_cons, List.mem_cons, Example.mem_dedup]

theorem Example.nodup_dedup : ∀ l : List Str, (Example.dedup l).Nodup
  | [] => .nil
  | y :: l => by
    rw [Example.dedup]
    split
    · exact Example.nodup_dedup l
    · rename_i h
      exact List.nodup_cons.mpr ⟨h, Example.nodup_dedup l⟩

/-- Sets that are enumerated in the order of last insertion. -/
def Example.setOrder : SetOrder where
  order := Example.dedup
  nodup := Example.nodup_dedup
  mem _ _ := Example.mem_dedup

/-- Two hosts and three groups. -/
def Example.hosts : List (Entry HostDecl) := [.str p!"root@web", .dict (some { name := some p!"db", groups := [p!"servers"] })]

def Example.groups : List (Entry GroupDecl) :=
  [.decl { name := p!"desktops", after := [p!"linux"] }, .dict (some { name := p!"servers", after := [p!"linux"] }), .str p!"linux"]

example : (match declare 6 Example.setOrder Example.hosts (some Example.groups) with
    | some (.ok d) => some (d.hosts.map (·.1), d.order.order)
    | _ => none) = some ([p!"web", p!"db"], [p!"early-explicits", p!"all", p!"linux", p!"desktops", p!"servers"]) := by
  decide +kernel

/-- If `linux` has to come after `servers` as well, the inventory is rejected as C57_value_error says. -/
example : (match declare 6 Example.setOrder Example.hosts (some (Example.groups.take 2 ++ [.decl { name := p!"linux", after := [p!"servers"] }])) with
    | some (.error e) => some e
    | _ => none) = some (.valueError p!"Dependency cycle detected!") ∧ ∀ x ∈ Example.hosts, x ≠ .dict none := by
  refine ⟨by decide +kernel, fun x hx => ?_⟩
  simp only [Example.hosts, List.mem_cons, List.not_mem_nil, or_false] at hx
  rcases hx with rfl | rfl <;> nofun

end Verif.Inventory
