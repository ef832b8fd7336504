/-
C60: groups that define the same variable.
-/
import Verif.Inventory.ConflictLemmas

namespace Verif.Inventory

theorem Precedes.trans {ds : List GroupDecl} {a b : Str} {n : Nat} (h : Precedes ds a b n) : ∀ {c : Str} {m : Nat}, Precedes ds b c m → Precedes ds a c (n + m)
  | _, _, .here _ => h
  | _, _, .step h1 h2 => .step (h.trans h1) h2

/-- C60, what is checked: if a host was loaded, two of its groups that both set a variable are so far apart that the first one would
be loaded first in every arrangement of the groups by rank: the longest row that ends at the second group together with the
longest row that starts at the first is longer than any row. What is missing: two groups without a relative order may be
that far apart, see `C60_different_rank_refuted`. -/
theorem C60_apart_partial {so : SetOrder} {src : Sources} {c : Consts} {es : List (Entry HostDecl)} {groups : Option (List (Entry GroupDecl))} {d : Declared}
    {name : Str} {decl : HostDecl} {h : Host} (hl : LoadedHost so src c es groups d name decl h) (x : Str) (own : Str → Option Obj)
    (ho : OwnDefinitions src d decl x own) (g1 g2 : Str) (h1 : g1 ∈ decl.groups) (h2 : g2 ∈ decl.groups) (hs1 : (own g1).isSome) (hs2 : (own g2).isSome)
    (hord : InOrder d.order.order g1 g2) :
    ∃ ds, DeclaresGroups es groups ds ∧ ∀ all rest row, LongestAll ds all → LongestRest ds g1 rest → LongestRow ds g2 row → all < rest + row := by
  obtain ⟨hd, hnd, _⟩ := hl.keyed
  obtain ⟨res, hres, hspec⟩ := declare_spec so es groups
  have : res = .ok d := by
    obtain ⟨n, h1⟩ := hres
    obtain ⟨m, h2⟩ := hl.declared
    have h3 := h1 (max n m) (Nat.le_max_left _ _)
    have h4 := h2 (max n m) (Nat.le_max_right _ _)
    exact Option.some.inj (h3.symm.trans h4)
  subst this
  obtain ⟨ds, hds, _, hda⟩ := hspec
  refine ⟨ds, hds, fun all rest row hall hrest hrow => ?_⟩
  obtain ⟨heap, heap', hi⟩ := hl.loaded
  obtain ⟨l, h3, h4, _⟩ := instanciateHost_ok hi
  have hord' : InOrder ([] ++ groupsInOrder d decl) g1 g2 := by
    obtain ⟨xs, ys, zs, he⟩ := hord
    unfold groupsInOrder
    rw [he]
    refine ⟨xs.filter fun g => decide (g ∈ decl.groups), ys.filter fun g => decide (g ∈ decl.groups), zs.filter fun g => decide (g ∈ decl.groups), ?_⟩
    simp [h1, h2]
  have hmem : ∀ {a b : Str} {l : List Str}, InOrder l a b → b ∈ l := by
    rintro a b l ⟨xs, ys, zs, rfl⟩
    simp
  have key := loadGroups_inv ho hd (gs := groupsInOrder d decl) (done := []) (fun g hg => by simpa using (List.mem_filter.mp hg).2)
    (by rw [List.nil_append]; exact hnd.sublist List.filter_sublist) h3 h4 (loopInv_early ho heap) g1 g2 hs1 hs2 (by simpa using hmem hord') hord'
  have hn1 : GroupName ds g1 := (hda.names g1).mp (by
    rw [← hda.order.perm.mem_iff]
    obtain ⟨xs, ys, zs, he⟩ := hord
    rw [he]
    simp)
  have hn2 : GroupName ds g2 := (hda.names g2).mp (by
    rw [← hda.order.perm.mem_iff]
    exact hmem hord)
  obtain ⟨n, hm1, hm2⟩ := hda.order.min g2 hn2
  obtain ⟨a, k, hk1, hk2, hk3⟩ := hda.order.max g1 hn1
  rw [hm1, hk1, hk2.unique hall, hk3.unique hrest, hm2.unique hrow] at key
  omega

theorem load_yields (so : SetOrder) (src : Sources) (c : Str → Consts) (heap : Heap) (es : List (Entry HostDecl)) (groups : Option (List (Entry GroupDecl))) :
    ∃ r, Yields (fun fuel => load fuel so src c heap es groups) r := by
  obtain ⟨res, ⟨n, hres⟩, _⟩ := declare_spec so es groups
  exact ⟨_, n, fun m hm => by simp only [load, show declare m so es groups = some res from hres m hm]; rfl⟩

theorem inOrder_or {l : List Str} {a b : Str} (ha : a ∈ l) (hb : b ∈ l) (hab : a ≠ b) : InOrder l a b ∨ InOrder l b a := by
  obtain ⟨xs, ys, rfl⟩ := List.append_of_mem ha
  rw [List.mem_append, List.mem_cons] at hb
  rcases hb with hb | hb | hb
  · obtain ⟨us, vs, rfl⟩ := List.append_of_mem hb
    exact .inr ⟨us, vs, ys, by simp⟩
  · exact absurd hb.symm hab
  · obtain ⟨us, vs, rfl⟩ := List.append_of_mem hb
    exact .inl ⟨xs, us, vs, by simp⟩

/-- C60, equal ranks: if two groups of a host both set a variable and the longest rows that end at each of them are equally long (so
that neither has to be loaded before the other), the inventory is rejected, whatever else happens. -/
theorem C60_same_rank_rejected_partial (so : SetOrder) (src : Sources) (c : Str → Consts) (heap : Heap) (es : List (Entry HostDecl)) (gs : List (Entry GroupDecl))
    (ds : List GroupDecl) (hds : Each (fun e d => e.group = .ok d) gs ds) (d : Declared) (hd : Yields (fun fuel => declare fuel so es (some gs)) (.ok d))
    (name : Str) (decl : HostDecl) (hhost : (name, decl) ∈ d.hosts) (x : Str) (own : Str → Option Obj)
    (ho : OwnDefinitions src d decl x own) (g1 g2 : Str) (hne : g1 ≠ g2) (h1 : g1 ∈ decl.groups) (h2 : g2 ∈ decl.groups) (hs1 : (own g1).isSome) (hs2 : (own g2).isSome)
    (n : Nat) (hn1 : LongestRow ds g1 n) (hn2 : LongestRow ds g2 n) :
    ∃ e, Yields (fun fuel => load fuel so src c heap es (some gs)) (.error e) := by
  obtain ⟨r, hr⟩ := load_yields so src c heap es (some gs)
  cases r with
  | error e => exact ⟨e, hr⟩
  | ok r =>
    exfalso
    obtain ⟨heap', hosts⟩ := r
    obtain ⟨d', hd', heach⟩ := C59_load hr
    have : d' = d := by
      obtain ⟨n, h1⟩ := hd
      obtain ⟨m, h2⟩ := hd'
      have h3 := h1 (max n m) (Nat.le_max_left _ _)
      have h4 := h2 (max n m) (Nat.le_max_right _ _)
      simp only at h3 h4
      rw [h3] at h4
      cases h4
      rfl
    subst this
    obtain ⟨⟨nm, h⟩, _, hnm, hlh⟩ : ∃ nh ∈ hosts, name = nh.1 ∧ LoadedHost so src (c name) es (some gs) d' name decl nh.2 := by
      have : ∀ {R : (Str × HostDecl) → (Str × Host) → Prop} {as : List (Str × HostDecl)} {bs : List (Str × Host)}, Each R as bs → ∀ a ∈ as, ∃ b ∈ bs, R a b := by
        intro R as bs he
        induction he with
        | nil => intro a ha; simp at ha
        | @cons a b as bs h1 _ ih =>
          intro a' ha
          rcases List.mem_cons.mp ha with rfl | ha
          · exact ⟨b, by simp, h1⟩
          · obtain ⟨b', h2, h3⟩ := ih a' ha
            exact ⟨b', by simp [h2], h3⟩
      exact this heach _ hhost
    obtain ⟨hnd, hmem, hprec, hrank⟩ := C55_order so es gs ds hds d' hd
    obtain ⟨res, hres, hspec⟩ := declare_spec so es (some gs)
    have : res = .ok d' := by
      obtain ⟨n, h1⟩ := hres
      obtain ⟨m, h2⟩ := hd
      have h3 := h1 (max n m) (Nat.le_max_left _ _)
      have h4 := h2 (max n m) (Nat.le_max_right _ _)
      exact Option.some.inj (h3.symm.trans h4)
    subst this
    obtain ⟨ds', hds', _, hda⟩ := hspec
    have hdet : ∀ ds', DeclaresGroups es (some gs) ds' → ds' = ds := fun ds' h' => Each.det (fun a b b' h1 h2 => by rw [h1] at h2; cases h2; rfl) h' hds
    have := hdet ds' hds'
    subst this
    -- both orders are impossible
    have main : ∀ a b, a ∈ decl.groups → b ∈ decl.groups → (own a).isSome → (own b).isSome → LongestRow ds' a n → LongestRow ds' b n → InOrder d'.order.order a b → False := by
      intro a b ha hb hsa hsb hra hrb hab
      obtain ⟨ds'', h3, h4⟩ := C60_apart_partial hlh x own ho a b ha hb hsa hsb hab
      have := hdet ds'' h3
      subst this
      have hga : GroupName ds'' a := hda.used _ hhost a ha
      obtain ⟨N, k, _, hN, hk⟩ := hda.order.max a hga
      have h5 := h4 N k n hN hk hrb
      obtain ⟨⟨y, hy⟩, _⟩ := hra
      obtain ⟨⟨z, hz⟩, _⟩ := hk
      have := hN.2 y z _ (hy.trans hz)
      omega
    have hg1 : g1 ∈ d'.order.order := (hmem g1).mpr (hda.used _ hhost g1 h1)
    have hg2 : g2 ∈ d'.order.order := (hmem g2).mpr (hda.used _ hhost g2 h2)
    rcases inOrder_or hg1 hg2 hne with h | h
    · exact main g1 g2 h1 h2 hs1 hs2 hn1 hn2 h
    · exact main g2 g1 h2 h1 hs2 hs1 hn2 hn1 h

/-! ### Counterexamples -/

theorem load_mono {so : SetOrder} {src : Sources} {c : Str → Consts} {heap : Heap} {es : List (Entry HostDecl)} {groups : Option (List (Entry GroupDecl))} {n : Nat}
    {r : Except Exn (Heap × List (Str × Host))} (hr : load n so src c heap es groups = some r) : Yields (fun fuel => load fuel so src c heap es groups) r := by
  refine ⟨n, fun m hm => ?_⟩
  unfold load at hr ⊢
  rw [Option.map_eq_some_iff] at hr
  obtain ⟨d, h1, h2⟩ := hr
  have : declare m so es groups = some d := declare_mono h1 hm
  simp only [this, ← h2]
  rfl

/-- The inventory is accepted, and then each host in it has these contents of the variable `x`. -/
def Accepted (so : SetOrder) (src : Sources) (c : Str → Consts) (heap : Heap) (es : List (Entry HostDecl)) (groups : Option (List (Entry GroupDecl))) (x : Str)
    (values : List (Option Nat)) : Prop :=
  ∃ heap' hosts, Yields (fun fuel => load fuel so src c heap es groups) (.ok (heap', hosts))
    ∧ (hosts.map fun h => (hostGet h.2.wrapper none x).map fun v => heap' v.id) = values

/-- The inventory is rejected. -/
def Rejected (so : SetOrder) (src : Sources) (c : Str → Consts) (heap : Heap) (es : List (Entry HostDecl)) (groups : Option (List (Entry GroupDecl))) : Prop :=
  ∃ e, Yields (fun fuel => load fuel so src c heap es groups) (.error e)

namespace Example

/-- What loading gives: the contents of `x`, or nothing if it raises an exception. -/
def contents (x : Str) : Option (Except Exn (Heap × List (Str × Host))) → Option (Option (List (Option Nat)))
  | some (.ok r) => some (some (r.2.map fun h => (hostGet h.2.wrapper none x).map fun v => r.1 v.id))
  | some (.error _) => some none
  | none => none

theorem accepted_of {so : SetOrder} {src : Sources} {c : Str → Consts} {heap : Heap} {es : List (Entry HostDecl)} {groups : Option (List (Entry GroupDecl))} {x : Str}
    {values : List (Option Nat)} (n : Nat) (h : contents x (load n so src c heap es groups) = some (some values)) : Accepted so src c heap es groups x values := by
  cases hl : load n so src c heap es groups with
  | none => rw [hl] at h; cases h
  | some r => cases r with
    | error e => rw [hl] at h; cases h
    | ok r =>
      rw [hl] at h
      simp only [contents, Option.some.injEq] at h
      exact ⟨r.1, r.2, load_mono hl, h⟩

theorem rejected_of {so : SetOrder} {src : Sources} {c : Str → Consts} {heap : Heap} {es : List (Entry HostDecl)} {groups : Option (List (Entry GroupDecl))} {x : Str}
    (n : Nat) (h : contents x (load n so src c heap es groups) = some none) : Rejected so src c heap es groups := by
  cases hl : load n so src c heap es groups with
  | none => rw [hl] at h; cases h
  | some r => cases r with
    | error e => exact ⟨e, load_mono hl⟩
    | ok r => rw [hl] at h; cases h

/-- Groups whose modules set `x` to an object. -/
def setting (l : List (Str × Nat)) : Sources where
  groupFile g := (l.lookup g).map (assignment p!"x")
  hostFile _ := none
  file _ := none
  inventory := inventoryWrapper

def memberOf (groups : List Str) : List (Entry HostDecl) := [.dict (some { name := some p!"web", groups })]

/-- `c` is after `b`, and `a2` after `a`. -/
def twoChains : List GroupDecl := [{ name := p!"a" }, { name := p!"a2", after := [p!"a"] }, { name := p!"b" }, { name := p!"c", after := [p!"b"] }]

/-- `b` is after `a`. There is also a longer chain of groups. -/
def longChain : List GroupDecl := [{ name := p!"a" }, { name := p!"b", after := [p!"a"] }, { name := p!"c" }, { name := p!"d", after := [p!"c"] }, { name := p!"e", after := [p!"d"] }]

/-- Sets that are enumerated with `b` first. -/
def setOrder' : SetOrder where
  order l := dedup ((l.filter fun x => x = p!"b") ++ l.filter fun x => x ≠ p!"b")
  nodup l := nodup_dedup _
  mem l x := by
    rw [mem_dedup, List.mem_append, List.mem_filter, List.mem_filter]
    by_cases h : x = p!"b" <;> simp [h]

/-- Modules that change the list `x` in place: one appends to it, the other one duplicates its elements. -/
def changing : Sources where
  groupFile g := if g = p!"all" then some (assignment p!"x" 1) else if g = p!"a" then some fun heap vs => .ok (fun n => if n = 1 then heap 1 + 1 else heap n, vs)
    else if g = p!"b" then some fun heap vs => .ok (fun n => if n = 1 then 2 * heap 1 else heap n, vs) else none
  hostFile _ := none
  file _ := none
  inventory := inventoryWrapper

/-- Groups whose modules set `x` to a new object with this content. -/
def creating (l : List (Str × Nat)) : Sources where
  groupFile g := (l.lookup g).map fun n heap vs => .ok (fun m => if m = n then n else heap m, vs.set p!"x" ⟨n, false⟩)
  hostFile _ := none
  file _ := none
  inventory := inventoryWrapper

theorem creating_own (l : List (Str × Nat)) (d : Declared) (decl : HostDecl) (hfile : ∀ g ∈ decl.groups, (d.groups.lookup g).map (·.file) = some none)
    (hv : decl.vars = []) (hpos : ∀ g n, l.lookup g = some n → n ≠ 0) (hne : ∀ g g' n n', l.lookup g = some n → l.lookup g' = some n' → g ≠ g' → n ≠ n') :
    OwnDefinitions (creating l) d decl p!"x" fun g => (l.lookup g).map fun n => ⟨n, false⟩ := by
  have hm : ∀ g ∈ decl.groups, groupModule (creating l) d g = (creating l).groupFile g := by
    intro g hg
    have := hfile g hg
    unfold groupModule
    cases hl : d.groups.lookup g with
    | none => rw [hl] at this; cases this
    | some gd =>
      rw [hl] at this
      simp only [Option.map_some, Option.some.injEq] at this
      simp only [Option.bind_some, this, bodyOf]
  refine ⟨⟨by decide, by decide, by decide⟩, by decide, by decide, fun g hg h => ?_, fun g hg v h => ?_, fun g hg v h code hc heap vs heap' vs' hr => ?_,
    fun g hg v h => ?_, fun g g' v v' h h' hgg => ?_, fun u hu => by rw [hv] at hu; simp at hu, fun u hu => ?_⟩
  · rw [hm g hg]
    simp only [Option.map_eq_none_iff] at h
    simp only [creating, h]
    intro code hc
    cases hc
  · obtain ⟨n, h1, rfl⟩ := Option.map_eq_some_iff.mp h
    rw [hm g hg]
    simp only [creating, h1]
    refine ⟨_, rfl, fun heap vs heap' vs' hr => ?_⟩
    cases hr
    rw [Vars.get_set, if_pos rfl]
  · obtain ⟨n, h1, rfl⟩ := Option.map_eq_some_iff.mp h
    rw [hm g hg] at hc
    simp only [creating, h1] at hc
    cases hc
    cases hr
    simpa using hpos g n h1
  · obtain ⟨n, h1, rfl⟩ := Option.map_eq_some_iff.mp h
    rfl
  · obtain ⟨n, h1, rfl⟩ := Option.map_eq_some_iff.mp h
    obtain ⟨n', h2, rfl⟩ := Option.map_eq_some_iff.mp h'
    exact hne g g' n n' h1 h2 hgg
  · have : inventoryWrapper.exported.get p!"x" = none := by decide +kernel
    change inventoryWrapper.exported.get p!"x" = some u at hu
    rw [this] at hu
    cases hu

theorem lookup_two {a b g : Str} {i j n : Nat} (h : [(a, i), (b, j)].lookup g = some n) : (g = a ∧ n = i) ∨ (g = b ∧ n = j) := by
  by_cases ha : g = a
  · subst ha
    simp [List.lookup] at h
    exact .inl ⟨rfl, h.symm⟩
  · have h1 : (g == a) = false := by simpa using ha
    by_cases hb : g = b
    · subst hb
      simp [List.lookup, h1] at h
      exact .inr ⟨rfl, h.symm⟩
    · have h2 : (g == b) = false := by simpa using hb
      simp [List.lookup, h1, h2] at h

theorem twoChains_unordered (n : Nat) : ¬ Precedes twoChains p!"a" p!"c" n ∧ ¬ Precedes twoChains p!"c" p!"a" n := by
  have key : ∀ (S : List Str), (∀ u ∈ S, ∀ v, MustPrecede twoChains u v → v ∈ S) → ∀ {s t : Str} {n : Nat}, s ∈ S → Precedes twoChains s t n → t ∈ S := by
    intro S hS s t n hs h
    induction h with
    | here => exact hs
    | step h1 h2 ih => exact hS _ ih _ h2
  have hb : ∀ d ∈ twoChains, d.before = [] := by decide
  have hcl : ∀ S : List Str, (∀ u ∈ S, ∀ d ∈ twoChains, u ∈ d.after → d.name ∈ S) → p!"all" ∉ S → p!"early-explicits" ∉ S →
      ∀ u ∈ S, ∀ v, MustPrecede twoChains u v → v ∈ S := by
    intro S h1 h2 h3 u hu v h
    cases h with
    | before hd _ hb' => rw [hb _ hd] at hb'; simp at hb'
    | after hd _ ha => exact h1 u hu _ hd ha
    | all => exact absurd hu h2
    | early => exact absurd hu h3
  constructor
  · intro h
    have := key [p!"a", p!"a2"] (hcl _ (by decide) (by decide) (by decide)) (by decide) h
    revert this
    decide
  · intro h
    have := key [p!"c"] (hcl _ (by decide) (by decide) (by decide)) (by decide) h
    revert this
    decide

end Example

open Example in
/-- The hypotheses of `C60_same_rank_rejected_partial` are met by the groups `a` and `b` of `twoChains`, both of rank 2. -/
example : ∃ d decl, Yields (fun fuel => declare fuel setOrder (memberOf [p!"a", p!"b"]) (some (twoChains.map .decl))) (.ok d) ∧ (p!"web", decl) ∈ d.hosts
    ∧ OwnDefinitions (creating [(p!"a", 1), (p!"b", 2)]) d decl p!"x" (fun g => ([(p!"a", 1), (p!"b", 2)].lookup g).map fun n => ⟨n, false⟩)
    ∧ p!"a" ∈ decl.groups ∧ p!"b" ∈ decl.groups ∧ d.order.ranksMin p!"a" = 2 ∧ d.order.ranksMin p!"b" = 2 := by
  have hc : (match declare 6 setOrder (memberOf [p!"a", p!"b"]) (some (twoChains.map .decl)) with
      | some (.ok d) => decide (d.hosts = [(p!"web", { name := some p!"web", groups := [p!"a", p!"b", p!"all"] })]
        ∧ (∀ g ∈ [p!"a", p!"b", p!"all"], (d.groups.lookup g).map (·.file) = some none)
        ∧ d.order.ranksMin p!"a" = 2 ∧ d.order.ranksMin p!"b" = 2)
      | _ => false) = true := by decide +kernel
  cases hd : declare 6 setOrder (memberOf [p!"a", p!"b"]) (some (twoChains.map .decl)) with
  | none => rw [hd] at hc; cases hc
  | some r => cases r with
    | error e => rw [hd] at hc; cases hc
    | ok d =>
      rw [hd] at hc
      simp only [decide_eq_true_eq] at hc
      obtain ⟨h1, h2, h3, h4⟩ := hc
      refine ⟨d, _, ⟨6, fun m hm => declare_mono hd hm⟩, by rw [h1]; exact List.mem_singleton.mpr rfl, creating_own _ _ _ h2 rfl ?_ ?_, by decide, by decide, h3, h4⟩
      · intro g n hn
        rcases lookup_two hn with ⟨_, rfl⟩ | ⟨_, rfl⟩ <;> decide
      · intro g g' n n' hn hn' hgg
        rcases lookup_two hn with ⟨rfl, rfl⟩ | ⟨rfl, rfl⟩ <;> rcases lookup_two hn' with ⟨rfl, rfl⟩ | ⟨rfl, rfl⟩
        · exact absurd rfl hgg
        · decide
        · decide
        · exact absurd rfl hgg

open Example in
/-- Two groups that are ordered and far enough apart are accepted; `a2` determines the value. -/
example : Accepted setOrder (creating [(p!"a", 1), (p!"a2", 2)]) consts (fun n => n) (memberOf [p!"a", p!"a2"]) (some (twoChains.map .decl)) p!"x" [some 2] :=
  accepted_of 6 (by decide +kernel)

open Example in
/-- C60 does not hold as stated: two groups that are not ordered relative to each other, and set the same variable to different
values, are accepted if one of them has a greater rank. -/
theorem C60_different_rank_refuted :
    ∃ ds src, (∀ n, ¬ Precedes ds p!"a" p!"c" n ∧ ¬ Precedes ds p!"c" p!"a" n) ∧ src.groupFile p!"a" = some (assignment p!"x" 1)
      ∧ src.groupFile p!"c" = some (assignment p!"x" 2)
      ∧ Accepted setOrder src consts (fun n => n) (memberOf [p!"a", p!"c"]) (some (ds.map .decl)) p!"x" [some 2] :=
  ⟨twoChains, setting [(p!"a", 1), (p!"c", 2)], twoChains_unordered, rfl, rfl, accepted_of 6 (by decide +kernel)⟩

open Example in
/-- Groups that are ordered may be rejected, though nothing is ambiguous: `b` is declared to be loaded after `a`. -/
theorem C60_ordered_refuted :
    ∃ ds src, Precedes ds p!"a" p!"b" 1 ∧ (∀ g, g ≠ p!"a" → g ≠ p!"b" → src.groupFile g = none)
      ∧ Rejected setOrder src consts (fun n => n) (memberOf [p!"a", p!"b"]) (some (ds.map .decl)) := by
  refine ⟨longChain, setting [(p!"a", 1), (p!"b", 2)], .step (.here _) (.after (d := { name := p!"b", after := [p!"a"] }) (by decide) (by decide) (by decide)), ?_,
    rejected_of (x := p!"x") 6 (by decide +kernel)⟩
  intro g ha hb
  simp only [setting, List.lookup, Option.map_eq_none_iff]
  have h1 : (g == p!"a") = false := by simpa using ha
  have h2 : (g == p!"b") = false := by simpa using hb
  rw [h1, h2]

open Example in
/-- Whether an inventory is accepted may depend on the order in which a set of strings is enumerated, which is different in every
run: here the first of two groups sets `x` to `None`. (The inventory declares no groups, so that they are taken from the host.) -/
theorem C60_set_order_refuted :
    ∃ src es, Accepted setOrder src consts (fun n => n) es none p!"x" [some 2] ∧ Rejected setOrder' src consts (fun n => n) es none :=
  ⟨setting [(p!"a", 0), (p!"b", 2)], memberOf [p!"a", p!"b"], accepted_of 6 (by decide +kernel), rejected_of (x := p!"x") 6 (by decide +kernel)⟩

open Example in
/-- The value of a variable may depend on it as well, if two groups change it in place. -/
theorem C60_value_refuted :
    ∃ src es, Accepted setOrder src consts (fun n => n) es none p!"x" [some 4] ∧ Accepted setOrder' src consts (fun n => n) es none p!"x" [some 3] :=
  ⟨changing, memberOf [p!"a", p!"b"], accepted_of 6 (by decide +kernel), accepted_of 6 (by decide +kernel)⟩

open Example in
/-- A variable in the declaration of a host may be redefined by a group only if the group `all` is not declared. -/
theorem C60_declaration_refuted :
    ∃ src es gs, Accepted setOrder src consts (fun n => n) es (some gs) p!"x" [some 1]
      ∧ Rejected setOrder src consts (fun n => n) es (some (.str p!"all" :: gs)) :=
  ⟨setting [(p!"a", 1)], [.dict (some { name := some p!"web", groups := [p!"a"], vars := [(p!"x", ⟨7, false⟩)] })], [.str p!"a"],
    accepted_of 6 (by decide +kernel), rejected_of (x := p!"x") 6 (by decide +kernel)⟩

end Verif.Inventory
