/-
Lemmas about the order of groups.
-/
import Verif.Inventory.DeclLemmas

namespace Verif.Inventory

theorem Graph.flip {α : Type} {vs : List α} {preds childs : α → List α} (hg : Graph vs preds childs) : Graph vs childs preds :=
  ⟨fun a ha b hb => (hg.agree b hb a ha).symm, hg.preds, hg.childs⟩

theorem Chain.flip {α : Type} [DecidableEq α] {vs : List α} {preds childs : α → List α} (hg : Graph vs preds childs) {a b : α} {n : Nat} (h : Chain childs a b n) (ha : a ∈ vs) :
    Chain preds b a n := by
  induction h with
  | here => exact .here _
  | @step b c n hc he ih =>
    have hb := Chain.mem hg hc ha
    have h1 : Chain preds c b 1 := Chain.one ((hg.agree b hb c (hg.childs b hb c he)).mp he)
    have := h1.trans ih
    rwa [Nat.add_comm] at this

theorem Acyclic.flip {α : Type} [DecidableEq α] {vs : List α} {preds childs : α → List α} (hg : Graph vs preds childs) (h : Acyclic vs childs) : Acyclic vs preds :=
  fun v hv n hc => h v hv n (Chain.flip hg.flip hc hv)

theorem maxRank_ge {ranks : Str → Int} : ∀ {l : List Str} {m : Int} {g : Str}, g ∈ l → ranks g ≤ l.foldl (fun m g => max m (ranks g)) m
  | x :: l, m, g, h => by
    have hm : ∀ (l : List Str) (m : Int), m ≤ l.foldl (fun m g => max m (ranks g)) m := by
      intro l
      induction l with
      | nil => intro m; exact Int.le_refl _
      | cons y l ih => intro m; exact Int.le_trans (Int.le_max_left _ _) (ih _)
    rcases List.mem_cons.mp h with rfl | h
    · exact Int.le_trans (Int.le_max_right _ _) (hm _ _)
    · exact maxRank_ge (l := l) h

theorem maxRank_le {ranks : Str → Int} {k : Int} : ∀ {l : List Str} {m : Int}, m ≤ k → (∀ g ∈ l, ranks g ≤ k) → l.foldl (fun m g => max m (ranks g)) m ≤ k
  | [], m, h, _ => h
  | x :: l, m, h, hl => maxRank_le (l := l) (Int.max_le.mpr ⟨h, hl x (by simp)⟩) (fun g hg => hl g (by simp [hg]))

theorem maxRank_mem {ranks : Str → Int} : ∀ {l : List Str} {m : Int}, l.foldl (fun m g => max m (ranks g)) m = m ∨ ∃ g ∈ l, l.foldl (fun m g => max m (ranks g)) m = ranks g
  | [], m => .inl rfl
  | x :: l, m => by
    rcases maxRank_mem (ranks := ranks) (l := l) (m := max m (ranks x)) with h | ⟨g, hg, h⟩
    · rw [List.foldl_cons, h]
      rcases Int.le_total m (ranks x) with h' | h'
      · exact .inr ⟨x, by simp, Int.max_eq_right h'⟩
      · exact .inl (Int.max_eq_left h')
    · exact .inr ⟨g, by simp [hg], h⟩

/-- The constraints as a graph. -/
structure Arrow (ds : List GroupDecl) (l : Decls GroupDecl) : Prop where
  nodup : (l.map (·.1)).Nodup
  names : ∀ g, g ∈ l.map (·.1) ↔ GroupName ds g
  before : ∀ g x, x ∈ beforeOf l g ↔ MustPrecede ds g x
  after : ∀ g x, x ∈ afterOf l g ↔ MustPrecede ds x g
  known : ∀ a b, MustPrecede ds a b → GroupName ds a ∧ GroupName ds b
  keyed : Keyed l

theorem arrow_merged (so : SetOrder) {ds : List GroupDecl} (hn : (ds.map (·.name)).Nodup)
    (hkn : ∀ a b, MustPrecede ds a b → GroupName ds a ∧ GroupName ds b) : Arrow ds (mergeDependencies so (addBuiltin (ds.map (normalized so)))) := by
  obtain ⟨h1, h2, h3⟩ := addBuiltin_spec so hn
  obtain ⟨h4, h5, h6⟩ := mergeDependencies_spec so h1 (fun a b h => by
    obtain ⟨ha, hb⟩ := hkn a b ((h3 a b).mp h)
    exact ⟨(h2 a).mpr ha, (h2 b).mpr hb⟩)
  have hnm : ∀ g, g ∈ (mergeDependencies so (addBuiltin (ds.map (normalized so)))).map (·.1) ↔ GroupName ds g := fun g => by rw [h5, h2]
  refine ⟨h4.nodup, hnm, fun g x => ?_, fun g x => ?_, hkn, h4⟩
  · rw [mem_beforeOf h4.nodup]
    constructor
    · rintro ⟨d, hd, hx⟩
      exact (h3 _ _).mp (((h6 g d hd).1 x).mp hx)
    · intro h
      obtain ⟨⟨k, d⟩, hd, rfl⟩ := List.mem_map.mp ((hnm g).mpr (hkn g x h).1)
      exact ⟨d, hd, ((h6 k d hd).1 x).mpr ((h3 _ _).mpr h)⟩
  · rw [mem_afterOf h4.nodup]
    constructor
    · rintro ⟨d, hd, hx⟩
      exact (h3 _ _).mp (((h6 g d hd).2 x).mp hx)
    · intro h
      obtain ⟨⟨k, d⟩, hd, rfl⟩ := List.mem_map.mp ((hnm g).mpr (hkn x g h).2)
      exact ⟨d, hd, ((h6 k d hd).2 x).mpr ((h3 _ _).mpr h)⟩

section
variable {ds : List GroupDecl} {l : Decls GroupDecl} (h : Arrow ds l)
include h

theorem Arrow.graph : Graph (l.map (·.1)) (afterOf l) (beforeOf l) := by
  refine ⟨fun a _ b _ => by rw [h.before, h.after], fun a _ b hb => ?_, fun a _ b hb => ?_⟩
  · exact (h.names b).mpr (h.known a b ((h.before a b).mp hb)).2
  · exact (h.names b).mpr (h.known b a ((h.after a b).mp hb)).1

theorem Arrow.chain {a b : Str} {n : Nat} : Chain (beforeOf l) a b n ↔ Precedes ds a b n := by
  constructor
  · intro hc
    induction hc with
    | here => exact .here _
    | step _ he ih => exact .step ih ((h.before _ _).mp he)
  · intro hp
    induction hp with
    | here => exact .here _
    | step _ he ih => exact .step ih ((h.before _ _).mpr he)

omit h in
theorem Precedes.names (hkn : ∀ a b, MustPrecede ds a b → GroupName ds a ∧ GroupName ds b) {a b : Str} {n : Nat} (hp : Precedes ds a b (n + 1)) : GroupName ds a ∧ GroupName ds b := by
  generalize hm : n + 1 = m at hp
  induction hp generalizing n with
  | here => cases hm
  | @step b c k hp he ih =>
    refine ⟨?_, (hkn _ _ he).2⟩
    cases k with
    | zero => cases hp; exact (hkn _ _ he).1
    | succ k => exact (ih rfl).1

theorem Arrow.acyclic : Acyclic (l.map (·.1)) (beforeOf l) ↔ ∀ g n, ¬ Precedes ds g g (n + 1) := by
  constructor
  · intro hac g n hp
    have := hac g ((h.names g).mpr (hp.names h.known).1) _ (h.chain.mpr hp)
    omega
  · intro hno g _ n hc
    cases n with
    | zero => rfl
    | succ n => exact absurd (h.chain.mp hc) (hno g n)

theorem Arrow.longest {g : Str} (hg : g ∈ l.map (·.1)) {n : Nat} (hl : LongestChain (l.map (·.1)) (beforeOf l) g n) : LongestRow ds g n := by
  obtain ⟨⟨a, _, hc⟩, hmax⟩ := hl
  refine ⟨⟨a, h.chain.mp hc⟩, fun a m hp => ?_⟩
  cases m with
  | zero => exact Nat.zero_le _
  | succ m => exact hmax a ((h.names a).mpr (hp.names h.known).1) _ (h.chain.mpr hp)

theorem Arrow.rest {g : Str} (hg : g ∈ l.map (·.1)) {n : Nat} (hl : LongestChain (l.map (·.1)) (afterOf l) g n) : LongestRest ds g n := by
  obtain ⟨⟨a, ha, hc⟩, hmax⟩ := hl
  refine ⟨⟨a, h.chain.mp (Chain.flip h.graph.flip hc ha)⟩, fun b m hp => ?_⟩
  cases m with
  | zero => exact Nat.zero_le _
  | succ m =>
    have hb := (h.names b).mpr (hp.names h.known).2
    exact hmax b hb _ (Chain.flip h.graph (h.chain.mpr hp) hg)

omit h in
theorem GroupName.all (ds : List GroupDecl) : GroupName ds p!"all" := .inr (.inl rfl)

/-- What the order of the groups is. -/
structure OrderOf (ds : List GroupDecl) (names : List Str) (o : GroupOrder) : Prop where
  min : ∀ g, GroupName ds g → ∃ n : Nat, o.ranksMin g = n ∧ LongestRow ds g n
  max : ∀ g, GroupName ds g → ∃ n k : Nat, o.ranksMax g = (n : Int) - k ∧ LongestAll ds n ∧ LongestRest ds g k
  minOut : ∀ g, ¬ GroupName ds g → o.ranksMin g = -1
  maxOut : ∀ g, ¬ GroupName ds g → ∃ n : Nat, o.ranksMax g = (n : Int) + 1 ∧ LongestAll ds n
  order : o.order = sortBy o.ranksMin names

theorem topologicalOrder_spec {fuel : Nat} (hf : l.length < fuel) :
    ((∀ g n, ¬ Precedes ds g g (n + 1)) → ∃ o, topologicalOrder fuel l = some (.ok o) ∧ OrderOf ds (l.map (·.1)) o)
    ∧ (¬ (∀ g n, ¬ Precedes ds g g (n + 1)) → ∃ m, topologicalOrder fuel l = some (.error (.valueError m))) := by
  have hf' : (l.map (·.1)).length < fuel := by simpa using hf
  obtain ⟨rt, ht, hts⟩ := rankSort_spec h.graph fuel hf'
  obtain ⟨rb, hb, hbs⟩ := rankSort_spec h.graph.flip fuel hf'
  unfold topologicalOrder
  simp only [ht, hb]
  constructor
  · intro hno
    have hac := h.acyclic.mpr hno
    have hac' := hac.flip h.graph
    cases rt with
    | error e => cases e with
      | cycle c => exact absurd hac hts
      | keyError => exact hts.elim
    | ok rT =>
    cases rb with
    | error e => cases e with
      | cycle c => exact absurd hac' hbs
      | keyError => exact hbs.elim
    | ok rB =>
      obtain ⟨hT, hTo, _⟩ := hts
      obtain ⟨hB, hBo, _⟩ := hbs
      have hallm : p!"all" ∈ l.map (·.1) := (h.names _).mpr (.all ds)
      -- every rank is the length of a chain, whose other end has at least that rank
      have hTB : ∀ g ∈ l.map (·.1), ∃ g' ∈ l.map (·.1), rT g ≤ rB g' := by
        intro g hg
        obtain ⟨h0, ⟨a, ha, hc⟩, _⟩ := hT g hg
        obtain ⟨h0', _, hmax⟩ := hB a ha
        have := hmax g hg _ (Chain.flip h.graph hc ha)
        exact ⟨a, ha, by omega⟩
      have hBT : ∀ g ∈ l.map (·.1), ∃ g' ∈ l.map (·.1), rB g ≤ rT g' := by
        intro g hg
        obtain ⟨h0, ⟨a, ha, hc⟩, _⟩ := hB g hg
        obtain ⟨h0', _, hmax⟩ := hT a ha
        have := hmax g hg _ (Chain.flip h.graph.flip hc ha)
        exact ⟨a, ha, by omega⟩
      have hge : -1 ≤ maxRank (l.map (·.1)) rT := Int.le_trans (by have := (hT _ hallm).1; omega) (maxRank_ge (ranks := rT) hallm)
      have hge' : -1 ≤ maxRank (l.map (·.1)) rB := Int.le_trans (by have := (hB _ hallm).1; omega) (maxRank_ge (ranks := rB) hallm)
      have hmax : maxRank (l.map (·.1)) rT = maxRank (l.map (·.1)) rB := by
        refine Int.le_antisymm (maxRank_le hge' fun g hg => ?_) (maxRank_le hge fun g hg => ?_)
        · obtain ⟨g', hg', hle⟩ := hTB g hg
          exact Int.le_trans hle (maxRank_ge hg')
        · obtain ⟨g', hg', hle⟩ := hBT g hg
          exact Int.le_trans hle (maxRank_ge hg')
      -- the longest chain of all
      have hall : ∃ n : Nat, maxRank (l.map (·.1)) rB = n ∧ LongestAll ds n := by
        rw [← hmax]
        have h0 := maxRank_ge (ranks := rT) (m := -1) hallm
        have h0' := (hT _ hallm).1
        rcases maxRank_mem (ranks := rT) (l := l.map (·.1)) (m := -1) with hm | ⟨g, hg, hm⟩
        · omega
        · obtain ⟨h1, ⟨a, ha, hc⟩, _⟩ := hT g hg
          refine ⟨(rT g).toNat, by show List.foldl _ _ _ = _; omega, ⟨a, g, h.chain.mp hc⟩, fun a b m hp => ?_⟩
          cases m with
          | zero => exact Nat.zero_le _
          | succ m =>
            have hnm := hp.names h.known
            have hb := (h.names b).mpr hnm.2
            have h2 := (hT b hb).2.2 a ((h.names a).mpr hnm.1) _ (h.chain.mpr hp)
            have h3 := maxRank_ge (ranks := rT) (m := -1) hb
            have h4 := (hT b hb).1
            omega
      obtain ⟨N, hN, hNall⟩ := hall
      simp only [cycleToValueError, bind, Except.bind, hmax, if_true]
      refine ⟨_, rfl, fun g hg => ?_, fun g hg => ?_, fun g hg => ?_, fun g hg => ?_, rfl⟩
      · have hg' := (h.names g).mpr hg
        obtain ⟨h1, h2⟩ := hT g hg'
        exact ⟨(rT g).toNat, by simp only; omega, h.longest hg' h2⟩
      · have hg' := (h.names g).mpr hg
        obtain ⟨h1, h2⟩ := hB g hg'
        exact ⟨N, (rB g).toNat, by simp only [hN]; omega, hNall, h.rest hg' h2⟩
      · exact hTo g (fun hg' => hg ((h.names g).mp hg'))
      · refine ⟨N, ?_, hNall⟩
        have := hBo g (fun hg' => hg ((h.names g).mp hg'))
        simp only [hN, this]
        omega
  · intro hcy
    have hcy' : ¬ Acyclic (l.map (·.1)) (beforeOf l) := fun hac => hcy (h.acyclic.mp hac)
    cases rt with
    | ok rT => exact absurd hts.2.2 hcy'
    | error e => cases e with
      | cycle c => exact ⟨_, rfl⟩
      | keyError => exact hts.elim

end

theorem LongestRow.unique {ds : List GroupDecl} {g : Str} {n m : Nat} (h : LongestRow ds g n) (h' : LongestRow ds g m) : n = m := by
  obtain ⟨⟨a, ha⟩, hmax⟩ := h
  obtain ⟨⟨b, hb⟩, hmax'⟩ := h'
  exact Nat.le_antisymm (hmax' a n ha) (hmax b m hb)

theorem LongestRest.unique {ds : List GroupDecl} {g : Str} {n m : Nat} (h : LongestRest ds g n) (h' : LongestRest ds g m) : n = m := by
  obtain ⟨⟨a, ha⟩, hmax⟩ := h
  obtain ⟨⟨b, hb⟩, hmax'⟩ := h'
  exact Nat.le_antisymm (hmax' a n ha) (hmax b m hb)

theorem LongestAll.unique {ds : List GroupDecl} {n m : Nat} (h : LongestAll ds n) (h' : LongestAll ds m) : n = m := by
  obtain ⟨⟨a, b, ha⟩, hmax⟩ := h
  obtain ⟨⟨c, d, hb⟩, hmax'⟩ := h'
  exact Nat.le_antisymm (hmax' a b n ha) (hmax c d m hb)

/-- The order is determined by the names and the constraints. -/
theorem OrderOf.unique {ds : List GroupDecl} {names : List Str} {o o' : GroupOrder} (h : OrderOf ds names o) (h' : OrderOf ds names o') : o = o' := by
  have hmin : o.ranksMin = o'.ranksMin := by
    funext g
    by_cases hg : GroupName ds g
    · obtain ⟨n, h1, h2⟩ := h.min g hg
      obtain ⟨m, h3, h4⟩ := h'.min g hg
      rw [h1, h3, h2.unique h4]
    · rw [h.minOut g hg, h'.minOut g hg]
  have hmax : o.ranksMax = o'.ranksMax := by
    funext g
    by_cases hg : GroupName ds g
    · obtain ⟨n, k, h1, h2, h3⟩ := h.max g hg
      obtain ⟨m, j, h4, h5, h6⟩ := h'.max g hg
      rw [h1, h4, h2.unique h5, h3.unique h6]
    · obtain ⟨n, h1, h2⟩ := h.maxOut g hg
      obtain ⟨m, h3, h4⟩ := h'.maxOut g hg
      rw [h1, h3, h2.unique h4]
  have hord : o.order = o'.order := by rw [h.order, h'.order, hmin]
  cases o; cases o'
  simp only at hmin hmax hord
  rw [hmin, hmax, hord]

theorem inOrder_of_pairwise {l : List Str} {f : Str → Int} (hs : l.Pairwise fun a b => f a ≤ f b) {a b : Str} (ha : a ∈ l) (hb : b ∈ l) (hlt : f a < f b) :
    InOrder l a b := by
  obtain ⟨xs, ys, rfl⟩ := List.append_of_mem ha
  rcases List.mem_append.mp hb with h | h
  · have := (List.pairwise_append.mp hs).2.2 b h a (by simp)
    omega
  · rcases List.mem_cons.mp h with rfl | h
    · omega
    · obtain ⟨y1, y2, rfl⟩ := List.append_of_mem h
      exact ⟨xs, y1, y2, by simp⟩

theorem insertBy_perm (key : Str → Int) (x : Str) : ∀ l, (insertBy key x l).Perm (x :: l)
  | [] => .refl _
  | y :: l => by
    rw [insertBy]
    split
    · exact .refl _
    · exact ((insertBy_perm key x l).cons y).trans (.swap x y l)

theorem sortBy_perm (key : Str → Int) : ∀ l, (sortBy key l).Perm l
  | [] => .refl _
  | x :: l => (insertBy_perm key x _).trans ((sortBy_perm key l).cons x)

theorem insertBy_sorted {key : Str → Int} {x : Str} : ∀ {l : List Str}, l.Pairwise (fun a b => key a ≤ key b) → (insertBy key x l).Pairwise fun a b => key a ≤ key b
  | [], _ => List.pairwise_singleton _ _
  | y :: l, h => by
    obtain ⟨h1, h2⟩ := List.pairwise_cons.mp h
    rw [insertBy]
    split
    · rename_i hx
      refine List.pairwise_cons.mpr ⟨fun z hz => ?_, h⟩
      rcases List.mem_cons.mp hz with rfl | hz
      · exact hx
      · have := h1 z hz
        omega
    · refine List.pairwise_cons.mpr ⟨fun z hz => ?_, insertBy_sorted h2⟩
      rcases List.mem_cons.mp ((insertBy_perm key x l).mem_iff.mp hz) with rfl | hz
      · omega
      · exact h1 z hz

theorem sortBy_sorted (key : Str → Int) : ∀ l, (sortBy key l).Pairwise fun a b => key a ≤ key b
  | [] => .nil
  | _ :: l => insertBy_sorted (sortBy_sorted key l)

theorem OrderOf.sorted {ds : List GroupDecl} {names : List Str} {o : GroupOrder} (h : OrderOf ds names o) : o.order.Pairwise fun a b => o.ranksMin a ≤ o.ranksMin b := by
  rw [h.order]
  exact sortBy_sorted _ _

theorem OrderOf.perm {ds : List GroupDecl} {names : List Str} {o : GroupOrder} (h : OrderOf ds names o) : o.order.Perm names := by
  rw [h.order]
  exact sortBy_perm _ _

end Verif.Inventory
