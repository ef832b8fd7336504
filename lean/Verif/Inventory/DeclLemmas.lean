/-
Lemmas about the declarations of an inventory.
-/
import Verif.Inventory.DeclSpec
import Verif.Inventory.RankLemmas

namespace Verif.Inventory

/-! ### Dicts as lists -/

theorem lookup_mem {δ : Type} : ∀ {l : Decls δ} {k : Str} {d : δ}, l.lookup k = some d → (k, d) ∈ l
  | (k', d') :: l, k, d, h => by
    rw [List.lookup_cons] at h
    split at h
    · next e => cases h; simp only [beq_iff_eq] at e; simp [e]
    · exact List.mem_cons_of_mem _ (lookup_mem h)

theorem lookup_of_mem {δ : Type} : ∀ {l : Decls δ} {k : Str} {d : δ}, (l.map (·.1)).Nodup → (k, d) ∈ l → l.lookup k = some d
  | (k', d') :: l, k, d, hn, h => by
    rw [List.map_cons, List.nodup_cons] at hn
    rw [List.lookup_cons]
    rcases List.mem_cons.mp h with h' | h'
    · cases h'; simp
    · have : (k == k') = false := by
        simp only [beq_eq_false_iff_ne, ne_eq]
        rintro rfl
        exact hn.1 (List.mem_map.mpr ⟨(k, d), h', rfl⟩)
      rw [this]
      exact lookup_of_mem hn.2 h'

/-- `d.before` for a declaration in a dict -/
theorem mem_beforeOf {l : Decls GroupDecl} (hn : (l.map (·.1)).Nodup) {g x : Str} : x ∈ beforeOf l g ↔ ∃ d, (g, d) ∈ l ∧ x ∈ d.before := by
  unfold beforeOf
  constructor
  · intro h
    cases hl : l.lookup g with
    | none => rw [hl] at h; cases h
    | some d => rw [hl] at h; exact ⟨d, lookup_mem hl, h⟩
  · rintro ⟨d, hd, hx⟩
    rw [lookup_of_mem hn hd]; exact hx

theorem mem_afterOf {l : Decls GroupDecl} (hn : (l.map (·.1)).Nodup) {g x : Str} : x ∈ afterOf l g ↔ ∃ d, (g, d) ∈ l ∧ x ∈ d.after := by
  unfold afterOf
  constructor
  · intro h
    cases hl : l.lookup g with
    | none => rw [hl] at h; cases h
    | some d => rw [hl] at h; exact ⟨d, lookup_mem hl, h⟩
  · rintro ⟨d, hd, hx⟩
    rw [lookup_of_mem hn hd]; exact hx

/-! ### Merging -/

theorem keys_map {l : Decls GroupDecl} {f : Str × GroupDecl → Str × GroupDecl} (hf : ∀ x, (f x).1 = x.1) : (l.map f).map (·.1) = l.map (·.1) := by
  rw [List.map_map]
  exact List.map_congr_left fun x _ => hf x

theorem keys_appendAfter (k n : Str) (l : Decls GroupDecl) : (appendAfter k n l).map (·.1) = l.map (·.1) :=
  keys_map fun x => by split <;> rfl

theorem keys_appendBefore (k n : Str) (l : Decls GroupDecl) : (appendBefore k n l).map (·.1) = l.map (·.1) :=
  keys_map fun x => by split <;> rfl

/-- The item that is there after `append`. -/
theorem mem_appendAfter {k n : Str} {l : Decls GroupDecl} {g : Str} {d : GroupDecl} :
    (g, d) ∈ appendAfter k n l ↔ ∃ d0, (g, d0) ∈ l ∧ d = if g = k then { d0 with after := d0.after ++ [n] } else d0 := by
  unfold appendAfter
  rw [List.mem_map]
  constructor
  · rintro ⟨⟨g0, d0⟩, h, he⟩
    split at he
    · next e => cases he; exact ⟨d0, h, by rw [if_pos e]⟩
    · next e => cases he; exact ⟨_, h, by rw [if_neg e]⟩
  · rintro ⟨d0, h, rfl⟩
    refine ⟨_, h, ?_⟩
    split <;> rfl

theorem mem_appendBefore {k n : Str} {l : Decls GroupDecl} {g : Str} {d : GroupDecl} :
    (g, d) ∈ appendBefore k n l ↔ ∃ d0, (g, d0) ∈ l ∧ d = if g = k then { d0 with before := d0.before ++ [n] } else d0 := by
  unfold appendBefore
  rw [List.mem_map]
  constructor
  · rintro ⟨⟨g0, d0⟩, h, he⟩
    split at he
    · next e => cases he; exact ⟨d0, h, by rw [if_pos e]⟩
    · next e => cases he; exact ⟨_, h, by rw [if_neg e]⟩
  · rintro ⟨d0, h, rfl⟩
    refine ⟨_, h, ?_⟩
    split <;> rfl

/-- A series of appends. -/
def appendAllAfter (pairs : List (Str × Str)) (l : Decls GroupDecl) : Decls GroupDecl := pairs.foldl (fun l p => appendAfter p.1 p.2 l) l

/-- A series of appends. -/
def appendAllBefore (pairs : List (Str × Str)) (l : Decls GroupDecl) : Decls GroupDecl := pairs.foldl (fun l p => appendBefore p.1 p.2 l) l

/-- The declarations are those of the first list, with other constraints. -/
structure Updated (f : Str → GroupDecl → GroupDecl → Prop) (l l' : Decls GroupDecl) : Prop where
  keys : l'.map (·.1) = l.map (·.1)
  item : ∀ g d, (g, d) ∈ l' → ∃ d0, (g, d0) ∈ l ∧ f g d0 d

theorem appendAllAfter_spec : ∀ (pairs : List (Str × Str)) (l : Decls GroupDecl),
    Updated (fun g d0 d => d.name = d0.name ∧ d.file = d0.file ∧ d.before = d0.before ∧ ∀ x, x ∈ d.after ↔ x ∈ d0.after ∨ (g, x) ∈ pairs) l (appendAllAfter pairs l)
  | [], l => ⟨rfl, fun g d h => ⟨d, h, rfl, rfl, rfl, fun x => by simp⟩⟩
  | (k, n) :: pairs, l => by
    obtain ⟨h1, h2⟩ := appendAllAfter_spec pairs (appendAfter k n l)
    refine ⟨h1.trans (keys_appendAfter k n l), fun g d h => ?_⟩
    obtain ⟨d1, hd1, e1, e2, e3, e4⟩ := h2 g d h
    obtain ⟨d0, hd0, rfl⟩ := mem_appendAfter.mp hd1
    refine ⟨d0, hd0, ?_, ?_, ?_, fun x => ?_⟩
    · rw [e1]; split <;> rfl
    · rw [e2]; split <;> rfl
    · rw [e3]; split <;> rfl
    · rw [e4 x, List.mem_cons, Prod.mk.injEq]
      split
      · next e => simp only [List.mem_append, List.mem_singleton, e, true_and, or_assoc]
      · next e => simp only [e, false_and, false_or]

theorem appendAllBefore_spec : ∀ (pairs : List (Str × Str)) (l : Decls GroupDecl),
    Updated (fun g d0 d => d.name = d0.name ∧ d.file = d0.file ∧ d.after = d0.after ∧ ∀ x, x ∈ d.before ↔ x ∈ d0.before ∨ (g, x) ∈ pairs) l (appendAllBefore pairs l)
  | [], l => ⟨rfl, fun g d h => ⟨d, h, rfl, rfl, rfl, fun x => by simp⟩⟩
  | (k, n) :: pairs, l => by
    obtain ⟨h1, h2⟩ := appendAllBefore_spec pairs (appendBefore k n l)
    refine ⟨h1.trans (keys_appendBefore k n l), fun g d h => ?_⟩
    obtain ⟨d1, hd1, e1, e2, e3, e4⟩ := h2 g d h
    obtain ⟨d0, hd0, rfl⟩ := mem_appendBefore.mp hd1
    refine ⟨d0, hd0, ?_, ?_, ?_, fun x => ?_⟩
    · rw [e1]; split <;> rfl
    · rw [e2]; split <;> rfl
    · rw [e3]; split <;> rfl
    · rw [e4 x, List.mem_cons, Prod.mk.injEq]
      split
      · next e => simp only [List.mem_append, List.mem_singleton, e, true_and, or_assoc]
      · next e => simp only [e, false_and, false_or]

theorem mergeAfter_eq (l : Decls GroupDecl) : mergeAfter l = appendAllAfter (l.flatMap fun d => d.2.before.map fun b => (b, d.2.name)) l := by
  unfold mergeAfter appendAllAfter
  rw [List.foldl_flatMap]
  congr 1
  funext ds d
  rw [List.foldl_map]

theorem mergeBefore_eq (l : Decls GroupDecl) : mergeBefore l = appendAllBefore (l.flatMap fun d => d.2.after.map fun a => (a, d.2.name)) l := by
  unfold mergeBefore appendAllBefore
  rw [List.foldl_flatMap]
  congr 1
  funext ds d
  rw [List.foldl_map]

/-- Dicts whose keys are the names of the declarations. -/
structure Keyed (l : Decls GroupDecl) : Prop where
  nodup : (l.map (·.1)).Nodup
  name : ∀ g d, (g, d) ∈ l → d.name = g

/-- The constraints in the declarations. -/
def Edge (l : Decls GroupDecl) (a b : Str) : Prop := (∃ d, (a, d) ∈ l ∧ b ∈ d.before) ∨ ∃ d, (b, d) ∈ l ∧ a ∈ d.after

theorem mergeDependencies_spec (so : SetOrder) {l : Decls GroupDecl} (hk : Keyed l)
    (hc : ∀ a b, Edge l a b → a ∈ l.map (·.1) ∧ b ∈ l.map (·.1)) :
    Keyed (mergeDependencies so l) ∧ (mergeDependencies so l).map (·.1) = l.map (·.1)
    ∧ ∀ g d, (g, d) ∈ mergeDependencies so l → (∀ x, x ∈ d.before ↔ Edge l g x) ∧ (∀ x, x ∈ d.after ↔ Edge l x g) := by
  -- the first step
  have s1 := appendAllAfter_spec (l.flatMap fun d => d.2.before.map fun b => (b, d.2.name)) l
  rw [← mergeAfter_eq] at s1
  have p1 : ∀ g x, (g, x) ∈ (l.flatMap fun d => d.2.before.map fun b => (b, d.2.name)) ↔ ∃ d, (x, d) ∈ l ∧ g ∈ d.before := by
    intro g x
    simp only [List.mem_flatMap, List.mem_map, Prod.mk.injEq]
    constructor
    · rintro ⟨⟨k, d⟩, hd, b, hb, rfl, rfl⟩
      have := hk.name k d hd
      simp only at this ⊢
      exact ⟨d, by rw [this]; exact hd, hb⟩
    · rintro ⟨d, hd, hg⟩
      exact ⟨(x, d), hd, g, hg, rfl, hk.name x d hd⟩
  -- the second step
  have k2 : (clearBefore so (mergeAfter l)).map (·.1) = l.map (·.1) := by
    rw [← s1.keys]
    exact keys_map (fun _ => rfl)
  have i2 : ∀ g d, (g, d) ∈ clearBefore so (mergeAfter l) → d.name = g ∧ d.before = [] ∧ (∀ x, x ∈ d.after ↔ Edge l x g) := by
    intro g d h
    unfold clearBefore at h
    obtain ⟨⟨g1, d1⟩, hd1, he⟩ := List.mem_map.mp h
    cases he
    obtain ⟨d0, hd0, e1, e2, e3, e4⟩ := s1.item _ _ hd1
    refine ⟨e1.trans (hk.name _ _ hd0), rfl, fun x => ?_⟩
    show x ∈ so.order d1.after ↔ _
    rw [so.mem, e4 x, p1]
    unfold Edge
    constructor
    · rintro (h | h)
      · exact .inr ⟨d0, hd0, h⟩
      · exact .inl h
    · rintro (h | ⟨d, hd, h⟩)
      · exact .inr h
      · have := (lookup_of_mem hk.nodup hd).symm.trans (lookup_of_mem hk.nodup hd0)
        cases this
        exact .inl h
  have l2 : Keyed (clearBefore so (mergeAfter l)) := ⟨by rw [k2]; exact hk.nodup, fun g d h => (i2 g d h).1⟩
  -- the third step
  have s3 := appendAllBefore_spec ((clearBefore so (mergeAfter l)).flatMap fun d => d.2.after.map fun a => (a, d.2.name)) (clearBefore so (mergeAfter l))
  rw [← mergeBefore_eq] at s3
  have p3 : ∀ g x, (g, x) ∈ ((clearBefore so (mergeAfter l)).flatMap fun d => d.2.after.map fun a => (a, d.2.name)) ↔ Edge l g x := by
    intro g x
    simp only [List.mem_flatMap, List.mem_map, Prod.mk.injEq]
    constructor
    · rintro ⟨⟨k, d⟩, hd, b, hb, rfl, rfl⟩
      obtain ⟨h1, _, h2⟩ := i2 k d hd
      simp only at hb ⊢
      rw [h1]
      exact (h2 b).mp hb
    · intro he
      obtain ⟨_, hx⟩ := hc g x he
      rw [← k2] at hx
      obtain ⟨⟨k, d⟩, hd, rfl⟩ := List.mem_map.mp hx
      obtain ⟨h1, _, h2⟩ := i2 k d hd
      exact ⟨(k, d), hd, g, (h2 g).mpr he, rfl, h1⟩
  -- the fourth step
  have k4 : (mergeDependencies so l).map (·.1) = l.map (·.1) := by
    rw [← k2, ← s3.keys]
    exact keys_map (fun _ => rfl)
  have i4 : ∀ g d, (g, d) ∈ mergeDependencies so l → d.name = g ∧ (∀ x, x ∈ d.before ↔ Edge l g x) ∧ (∀ x, x ∈ d.after ↔ Edge l x g) := by
    intro g d h
    unfold mergeDependencies dedupBefore at h
    obtain ⟨⟨g1, d1⟩, hd1, he⟩ := List.mem_map.mp h
    cases he
    obtain ⟨d0, hd0, e1, e2, e3, e4⟩ := s3.item _ _ hd1
    obtain ⟨h1, h2, h3⟩ := i2 _ _ hd0
    refine ⟨e1.trans h1, fun x => ?_, fun x => ?_⟩
    · show x ∈ so.order d1.before ↔ _
      rw [so.mem, e4 x, h2, p3]
      simp
    · show x ∈ d1.after ↔ _
      rw [e3, h3]
  exact ⟨⟨by rw [k4]; exact hk.nodup, fun g d h => (i4 g d h).1⟩, k4, fun g d h => (i4 g d h).2⟩

theorem mergeDependencies_file (so : SetOrder) (l : Decls GroupDecl) {g : Str} {d : GroupDecl} (h : (g, d) ∈ mergeDependencies so l) :
    ∃ d0, (g, d0) ∈ l ∧ d.file = d0.file := by
  have s1 := appendAllAfter_spec (l.flatMap fun d => d.2.before.map fun b => (b, d.2.name)) l
  rw [← mergeAfter_eq] at s1
  have s3 := appendAllBefore_spec ((clearBefore so (mergeAfter l)).flatMap fun d => d.2.after.map fun a => (a, d.2.name)) (clearBefore so (mergeAfter l))
  rw [← mergeBefore_eq] at s3
  unfold mergeDependencies dedupBefore at h
  obtain ⟨⟨g1, d1⟩, hd1, he⟩ := List.mem_map.mp h
  cases he
  obtain ⟨d2, hd2, _, e2, _⟩ := s3.item _ _ hd1
  unfold clearBefore at hd2
  obtain ⟨⟨g3, d3⟩, hd3, he⟩ := List.mem_map.mp hd2
  cases he
  obtain ⟨d4, hd4, _, e4, _⟩ := s1.item _ _ hd3
  exact ⟨d4, hd4, e2.trans e4⟩

/-! ### Adding groups -/

/-- A declaration without duplicates and with `all` -/
def normalized (so : SetOrder) (d : GroupDecl) : Str × GroupDecl :=
  (d.name, { d with before := so.order d.before, after := so.order (d.after ++ if d.name ≠ p!"all" then [p!"all"] else []) })

theorem addGroup_eq {so : SetOrder} {l : Decls GroupDecl} {e : Entry GroupDecl} {r : Decls GroupDecl} :
    addGroup so l e = .ok r ↔ ∃ d, e.group = .ok d ∧ d.name ∉ l.map (·.1) ∧ r = l ++ [normalized so d] := by
  unfold addGroup
  cases hg : e.group with
  | error x =>
    simp only [bind, Except.bind]
    constructor
    · intro h; cases h
    · rintro ⟨d, h, _⟩; cases h
  | ok d =>
    simp only [bind, Except.bind]
    split
    · next h =>
      constructor
      · intro h; cases h
      · rintro ⟨d', h1, h2, _⟩; cases h1; exact absurd h h2
    · next h =>
      constructor
      · intro h'; cases h'; exact ⟨d, rfl, h, rfl⟩
      · rintro ⟨d', h1, _, rfl⟩; cases h1; rfl

theorem normalized_fst (so : SetOrder) (ds : List GroupDecl) : (ds.map (normalized so)).map (·.1) = ds.map (·.name) := by
  rw [List.map_map]; rfl

theorem addGroups_eq {so : SetOrder} : ∀ {es : List (Entry GroupDecl)} {l r : Decls GroupDecl}, (l.map (·.1)).Nodup →
    (addGroups so es l = .ok r ↔ ∃ ds, Each (fun e d => e.group = .ok d) es ds ∧ (l.map (·.1) ++ ds.map (·.name)).Nodup ∧ r = l ++ ds.map (normalized so))
  | [], l, r, hn => by
    constructor
    · intro h; cases h; exact ⟨[], .nil, by simpa using hn, by simp⟩
    · rintro ⟨ds, h, _, rfl⟩; cases h; simp [addGroups]
  | e :: es, l, r, hn => by
    rw [addGroups]
    constructor
    · intro h
      cases ha : addGroup so l e with
      | error x => rw [ha] at h; cases h
      | ok l' =>
        rw [ha] at h
        obtain ⟨d, h1, h2, rfl⟩ := addGroup_eq.mp ha
        have hn' : ((l ++ [normalized so d]).map (·.1)).Nodup := by
          rw [List.map_append, List.nodup_append]
          exact ⟨hn, by simp, fun a ha b hb => by
            simp only [List.map_cons, List.map_nil, List.mem_singleton] at hb
            rintro rfl
            have hb : a = d.name := hb
            exact h2 (hb ▸ ha)⟩
        obtain ⟨ds, h3, h4, rfl⟩ := (addGroups_eq (so := so) hn').mp h
        refine ⟨d :: ds, .cons h1 h3, ?_, by simp⟩
        rw [List.map_append] at h4
        simpa [normalized] using h4
    · rintro ⟨ds, h1, h2, rfl⟩
      cases h1 with
      | @cons _ d _ ds h1 h3 =>
        have hd : d.name ∉ l.map (·.1) := by
          intro h
          rw [List.map_cons, List.nodup_append] at h2
          exact h2.2.2 _ h _ (by simp) rfl
        have ha : addGroup so l e = .ok (l ++ [normalized so d]) := addGroup_eq.mpr ⟨d, h1, hd, rfl⟩
        rw [ha]
        have h2' : ((l ++ [normalized so d]).map (·.1) ++ ds.map (·.name)).Nodup := by
          rw [List.map_append]
          simpa [normalized] using h2
        exact (addGroups_eq (so := so) (List.nodup_append.mp h2').1).mpr ⟨ds, h3, h2', by simp⟩

theorem Each.det {α β : Type} {R : α → β → Prop} (h : ∀ a b b', R a b → R a b' → b = b') : ∀ {as : List α} {bs bs' : List β}, Each R as bs → Each R as bs' → bs = bs'
  | _, _, _, .nil, .nil => rfl
  | _, _, _, .cons h1 h2, .cons h3 h4 => by rw [h _ _ _ h1 h3, Each.det h h2 h4]

/-! ### The two groups that always exist -/

theorem setItem_keys {δ : Type} {k : Str} {v : δ} : ∀ {l : Decls δ} {g : Str}, g ∈ (setItem k v l).map (·.1) ↔ g ∈ l.map (·.1) ∨ g = k
  | [], g => by simp [setItem]
  | (k', v') :: l, g => by
    rw [setItem]
    split
    · next h => subst h; simp only [List.map_cons, List.mem_cons]; constructor <;> intro h <;> rcases h with h | h <;> simp_all
    · simp only [List.map_cons, List.mem_cons, setItem_keys (l := l), or_assoc]

theorem setItem_nodup {δ : Type} {k : Str} {v : δ} : ∀ {l : Decls δ}, (l.map (·.1)).Nodup → ((setItem k v l).map (·.1)).Nodup
  | [], _ => by simp [setItem]
  | (k', v') :: l, h => by
    rw [setItem]
    split
    · next e => subst e; exact h
    · next e =>
      rw [List.map_cons, List.nodup_cons] at h ⊢
      refine ⟨fun h' => ?_, setItem_nodup h.2⟩
      rcases setItem_keys.mp h' with h' | h'
      · exact h.1 h'
      · exact e h'

theorem setItem_mem {δ : Type} {k : Str} {v : δ} : ∀ {l : Decls δ} {g : Str} {d : δ}, (l.map (·.1)).Nodup →
    ((g, d) ∈ setItem k v l ↔ (g = k ∧ d = v) ∨ (g ≠ k ∧ (g, d) ∈ l))
  | [], g, d, _ => by simp [setItem]
  | (k', v') :: l, g, d, hn => by
    rw [setItem]
    rw [List.map_cons, List.nodup_cons] at hn
    split
    · next e =>
      subst e
      simp only [List.mem_cons, Prod.mk.injEq]
      constructor
      · rintro (h | h)
        · exact .inl h
        · exact .inr ⟨by rintro rfl; exact hn.1 (List.mem_map.mpr ⟨_, h, rfl⟩), .inr h⟩
      · rintro (h | ⟨h1, h | h⟩)
        · exact .inl h
        · exact absurd h.1 h1
        · exact .inr h
    · next e =>
      simp only [List.mem_cons, Prod.mk.injEq, setItem_mem (l := l) hn.2]
      constructor
      · rintro (⟨rfl, rfl⟩ | h | h)
        · exact .inr ⟨e, .inl ⟨rfl, rfl⟩⟩
        · exact .inl h
        · exact .inr ⟨h.1, .inr h.2⟩
      · rintro (h | ⟨h1, h | h⟩)
        · exact .inr (.inl h)
        · exact .inl h
        · exact .inr (.inr ⟨h1, h⟩)

theorem all_ne : (p!"all" : Str) ≠ p!"early-explicits" := by decide

/-- The declarations, with the builtin ones. -/
theorem addBuiltin_spec (so : SetOrder) {ds : List GroupDecl} (hn : (ds.map (·.name)).Nodup) :
    Keyed (addBuiltin (ds.map (normalized so)))
    ∧ (∀ g, g ∈ (addBuiltin (ds.map (normalized so))).map (·.1) ↔ GroupName ds g)
    ∧ ∀ a b, Edge (addBuiltin (ds.map (normalized so))) a b ↔ MustPrecede ds a b := by
  have hn0 : ((ds.map (normalized so)).map (·.1)).Nodup := by rw [normalized_fst]; exact hn
  have hn1 := setItem_nodup (k := p!"early-explicits") (v := ({ name := p!"early-explicits" } : GroupDecl)) hn0
  have hm1 := fun g d => setItem_mem (k := p!"early-explicits") (v := ({ name := p!"early-explicits" } : GroupDecl)) (g := g) (d := d) hn0
  have hk1 : ∀ g, g ∈ (setItem p!"early-explicits" ({ name := p!"early-explicits" } : GroupDecl) (ds.map (normalized so))).map (·.1)
      ↔ g ∈ ds.map (·.name) ∨ g = p!"early-explicits" := by
    intro g
    rw [setItem_keys, normalized_fst]
  have hds : ∀ g d, (g, d) ∈ ds.map (normalized so) ↔ ∃ d0 ∈ ds, g = d0.name ∧ d = (normalized so d0).2 := by
    intro g d
    rw [List.mem_map]
    constructor
    · rintro ⟨d0, h, he⟩; cases he; exact ⟨d0, h, rfl, rfl⟩
    · rintro ⟨d0, h, rfl, rfl⟩; exact ⟨d0, h, rfl⟩
  have haft : ∀ d0 x, x ∈ (normalized so d0).2.after ↔ x ∈ d0.after ∨ (d0.name ≠ p!"all" ∧ x = p!"all") := by
    intro d0 x
    unfold normalized
    simp only [so.mem, List.mem_append]
    split
    · next h => simp [h]
    · next h => simp [Decidable.not_not.mp h]
  have hbef : ∀ d0 x, x ∈ (normalized so d0).2.before ↔ x ∈ d0.before := fun d0 x => so.mem _ _
  unfold addBuiltin
  simp only
  by_cases hall : p!"all" ∈ ds.map (·.name)
  · rw [if_pos ((hk1 _).mpr (.inl hall))]
    refine ⟨⟨hn1, fun g d h => ?_⟩, fun g => ?_, fun a b => ?_⟩
    · rcases (hm1 g d).mp h with ⟨rfl, rfl⟩ | ⟨_, h⟩
      · rfl
      · obtain ⟨d0, _, rfl, rfl⟩ := (hds g d).mp h; rfl
    · rw [hk1]
      unfold GroupName
      constructor
      · rintro (h | h)
        · exact .inl h
        · exact .inr (.inr h)
      · rintro (h | rfl | h)
        · exact .inl h
        · exact .inl hall
        · exact .inr h
    · unfold Edge
      constructor
      · rintro (⟨d, hd, hb⟩ | ⟨d, hd, ha⟩)
        · rcases (hm1 _ _).mp hd with ⟨rfl, rfl⟩ | ⟨h1, h2⟩
          · cases hb
          · obtain ⟨d0, h3, rfl, rfl⟩ := (hds _ _).mp h2
            exact .before h3 h1 ((hbef _ _).mp hb)
        · rcases (hm1 _ _).mp hd with ⟨rfl, rfl⟩ | ⟨h1, h2⟩
          · cases ha
          · obtain ⟨d0, h3, rfl, rfl⟩ := (hds _ _).mp h2
            rcases (haft _ _).mp ha with h | ⟨h, rfl⟩
            · exact .after h3 h1 h
            · exact .all h3 h1 h
      · rintro (⟨h1, h2, h3⟩ | ⟨h1, h2, h3⟩ | ⟨h1, h2, h3⟩ | h)
        · exact .inl ⟨_, (hm1 _ _).mpr (.inr ⟨h2, (hds _ _).mpr ⟨_, h1, rfl, rfl⟩⟩), (hbef _ _).mpr h3⟩
        · exact .inr ⟨_, (hm1 _ _).mpr (.inr ⟨h2, (hds _ _).mpr ⟨_, h1, rfl, rfl⟩⟩), (haft _ _).mpr (.inl h3)⟩
        · exact .inr ⟨_, (hm1 _ _).mpr (.inr ⟨h2, (hds _ _).mpr ⟨_, h1, rfl, rfl⟩⟩), (haft _ _).mpr (.inr ⟨h3, rfl⟩)⟩
        · exact absurd hall h
  · have hall' : p!"all" ∉ (setItem p!"early-explicits" ({ name := p!"early-explicits" } : GroupDecl) (ds.map (normalized so))).map (·.1) := by
      rw [hk1]
      rintro (h | h)
      · exact hall h
      · exact all_ne h
    rw [if_neg hall']
    have hm2 : ∀ g d, (g, d) ∈ setItem p!"early-explicits" ({ name := p!"early-explicits" } : GroupDecl) (ds.map (normalized so))
        ++ [(p!"all", { name := p!"all", after := [p!"early-explicits"] })]
        ↔ (g = p!"early-explicits" ∧ d = { name := p!"early-explicits" }) ∨ (g ≠ p!"early-explicits" ∧ (g, d) ∈ ds.map (normalized so))
          ∨ (g = p!"all" ∧ d = { name := p!"all", after := [p!"early-explicits"] }) := by
      intro g d
      rw [List.mem_append, hm1, List.mem_singleton, Prod.mk.injEq, or_assoc]
    refine ⟨⟨?_, fun g d h => ?_⟩, fun g => ?_, fun a b => ?_⟩
    · rw [List.map_append, List.nodup_append]
      exact ⟨hn1, by simp, fun a ha b hb => by
        simp only [List.map_cons, List.map_nil, List.mem_singleton] at hb
        rintro rfl
        exact hall' (hb ▸ ha)⟩
    · rcases (hm2 g d).mp h with ⟨rfl, rfl⟩ | ⟨_, h⟩ | ⟨rfl, rfl⟩
      · rfl
      · obtain ⟨d0, _, rfl, rfl⟩ := (hds g d).mp h; rfl
      · rfl
    · rw [List.map_append, List.mem_append, hk1]
      unfold GroupName
      simp only [List.map_cons, List.map_nil, List.mem_singleton]
      constructor
      · rintro ((h | h) | h)
        · exact .inl h
        · exact .inr (.inr h)
        · exact .inr (.inl h)
      · rintro (h | h | h)
        · exact .inl (.inl h)
        · exact .inr h
        · exact .inl (.inr h)
    · unfold Edge
      constructor
      · rintro (⟨d, hd, hb⟩ | ⟨d, hd, ha⟩)
        · rcases (hm2 _ _).mp hd with ⟨rfl, rfl⟩ | ⟨h1, h2⟩ | ⟨rfl, rfl⟩
          · cases hb
          · obtain ⟨d0, h3, rfl, rfl⟩ := (hds _ _).mp h2
            exact .before h3 h1 ((hbef _ _).mp hb)
          · cases hb
        · rcases (hm2 _ _).mp hd with ⟨rfl, rfl⟩ | ⟨h1, h2⟩ | ⟨rfl, rfl⟩
          · cases ha
          · obtain ⟨d0, h3, rfl, rfl⟩ := (hds _ _).mp h2
            rcases (haft _ _).mp ha with h | ⟨h, rfl⟩
            · exact .after h3 h1 h
            · exact .all h3 h1 h
          · simp only [List.mem_singleton] at ha
            subst ha
            exact .early hall
      · rintro (⟨h1, h2, h3⟩ | ⟨h1, h2, h3⟩ | ⟨h1, h2, h3⟩ | h)
        · exact .inl ⟨_, (hm2 _ _).mpr (.inr (.inl ⟨h2, (hds _ _).mpr ⟨_, h1, rfl, rfl⟩⟩)), (hbef _ _).mpr h3⟩
        · exact .inr ⟨_, (hm2 _ _).mpr (.inr (.inl ⟨h2, (hds _ _).mpr ⟨_, h1, rfl, rfl⟩⟩)), (haft _ _).mpr (.inl h3)⟩
        · exact .inr ⟨_, (hm2 _ _).mpr (.inr (.inl ⟨h2, (hds _ _).mpr ⟨_, h1, rfl, rfl⟩⟩)), (haft _ _).mpr (.inr ⟨h3, rfl⟩)⟩
        · exact .inr ⟨_, (hm2 _ _).mpr (.inr (.inr ⟨rfl, rfl⟩)), by simp⟩

theorem addBuiltin_file {so : SetOrder} {ds : List GroupDecl} (hn : (ds.map (·.name)).Nodup) {g : Str} {d : GroupDecl}
    (h : (g, d) ∈ addBuiltin (ds.map (normalized so))) : GroupFile ds g d.file := by
  have hn0 : ((ds.map (normalized so)).map (·.1)).Nodup := by rw [normalized_fst]; exact hn
  have hm1 := fun g d => setItem_mem (k := p!"early-explicits") (v := ({ name := p!"early-explicits" } : GroupDecl)) (g := g) (d := d) hn0
  have hds : ∀ g d, (g, d) ∈ ds.map (normalized so) → ∃ d0 ∈ ds, g = d0.name ∧ d = (normalized so d0).2 := by
    intro g d h
    obtain ⟨d0, h0, he⟩ := List.mem_map.mp h
    cases he
    exact ⟨d0, h0, rfl, rfl⟩
  have hcase : (g, d) ∈ setItem p!"early-explicits" ({ name := p!"early-explicits" } : GroupDecl) (ds.map (normalized so)) → GroupFile ds g d.file := by
    intro h
    rcases (hm1 g d).mp h with ⟨rfl, rfl⟩ | ⟨h1, h2⟩
    · exact .inr ⟨.inl rfl, rfl⟩
    · obtain ⟨d0, h3, rfl, rfl⟩ := hds g d h2
      exact .inl ⟨h1, d0, h3, rfl, rfl⟩
  unfold addBuiltin at h
  simp only at h
  split at h
  · exact hcase h
  · next hall =>
    rcases List.mem_append.mp h with h | h
    · exact hcase h
    · simp only [List.mem_singleton, Prod.mk.injEq] at h
      obtain ⟨rfl, rfl⟩ := h
      refine .inr ⟨.inr fun hm => hall ?_, rfl⟩
      rw [setItem_keys, normalized_fst]
      exact .inl hm

/-! ### Hosts -/

/-- What a host is declared as after processing: the url is qualified, the name is filled in, the groups include `all`. -/
structure HostOf (e : Entry HostDecl) (h : Str × HostDecl) : Prop where
  name : ∃ groups, Names e h.1 groups ∧ ∀ g, g ∈ h.2.groups ↔ g ∈ groups ∨ g = p!"all"
  nodup : h.2.groups.Nodup
  decl : ∃ d, e.host = .ok d ∧ h.2.vars = d.vars ∧ h.2.file = d.file ∧ h.2.url = d.url.map qualifyUrl

theorem nameHost_eq {d d' : HostDecl} {name : Str} (h : nameHost d = .ok (name, d')) :
    (d'.groups = d.groups ∧ d'.vars = d.vars ∧ d'.file = d.file ∧ d'.url = d.url.map qualifyUrl) ∧ match d.name with
      | some n => n = name
      | none => ∃ url, d.url = some url ∧ extractHostname (qualifyUrl url) = .ok name := by
  unfold nameHost at h
  cases hn : d.name with
  | some n =>
    rw [hn] at h
    cases h
    exact ⟨⟨rfl, rfl, rfl, rfl⟩, rfl⟩
  | none =>
    rw [hn] at h
    cases hu : d.url with
    | none => rw [hu] at h; cases h
    | some url =>
      rw [hu] at h
      simp only [Option.map, bind, Except.bind] at h
      cases he : extractHostname (qualifyUrl url) with
      | error x => rw [he] at h; cases h
      | ok n =>
        rw [he] at h
        cases h
        exact ⟨⟨rfl, rfl, rfl, rfl⟩, url, rfl, he⟩

theorem nameHost_of {d : HostDecl} {name : Str} (h : match d.name with
      | some n => n = name
      | none => ∃ url, d.url = some url ∧ extractHostname (qualifyUrl url) = .ok name) :
    ∃ d', nameHost d = .ok (name, d') := by
  unfold nameHost
  cases hn : d.name with
  | some n =>
    rw [hn] at h
    cases h
    exact ⟨_, rfl⟩
  | none =>
    rw [hn] at h
    obtain ⟨url, h1, h2⟩ := h
    rw [h1]
    simp only [Option.map, bind, Except.bind, h2]
    exact ⟨_, rfl⟩

theorem Names.det {e : Entry HostDecl} {n n' : Str} {g g' : List Str} (h : Names e n g) (h' : Names e n' g') : n = n' ∧ g = g' := by
  obtain ⟨d, h1, h2, h3⟩ := h
  obtain ⟨d', h1', h2', h3'⟩ := h'
  rw [h1] at h1'
  cases h1'
  refine ⟨?_, h2.symm.trans h2'⟩
  cases hn : d.name with
  | some m =>
    rw [hn] at h3 h3'
    exact h3.symm.trans h3'
  | none =>
    rw [hn] at h3 h3'
    obtain ⟨u, h4, h5⟩ := h3
    obtain ⟨u', h4', h5'⟩ := h3'
    rw [h4] at h4'
    cases h4'
    rw [h5] at h5'
    cases h5'
    rfl

theorem addHost_ok {so : SetOrder} {l r : Decls HostDecl} {e : Entry HostDecl} (h : addHost so l e = .ok r) :
    ∃ x, HostOf e x ∧ x.1 ∉ l.map (·.1) ∧ r = l ++ [x] := by
  unfold addHost at h
  cases he : e.host with
  | error x => rw [he] at h; cases h
  | ok d =>
    simp only [he, bind, Except.bind] at h
    cases hn : nameHost d with
    | error x => rw [hn] at h; cases h
    | ok nd =>
      obtain ⟨name, d'⟩ := nd
      simp only [hn] at h
      split at h
      · cases h
      · next hnew =>
        cases h
        obtain ⟨⟨h1, h3, h4, h5⟩, h2⟩ := nameHost_eq hn
        refine ⟨_, ⟨⟨d.groups, ⟨d, he, rfl, h2⟩, fun g => ?_⟩, so.nodup _, d, he, h3, h4, h5⟩, hnew, rfl⟩
        simp only [so.mem, List.mem_append, List.mem_singleton, h1]

theorem addHost_of {so : SetOrder} {l : Decls HostDecl} {e : Entry HostDecl} {name : Str} {groups : List Str} (hnm : Names e name groups)
    (hnew : name ∉ l.map (·.1)) : ∃ x, x.1 = name ∧ addHost so l e = .ok (l ++ [x]) := by
  obtain ⟨d, h1, _, h3⟩ := hnm
  obtain ⟨d', h4⟩ := nameHost_of h3
  unfold addHost
  simp only [h1, h4, bind, Except.bind, if_neg hnew]
  exact ⟨_, rfl, rfl⟩

theorem preprocessHosts_ok {so : SetOrder} : ∀ {es : List (Entry HostDecl)} {l r : Decls HostDecl}, (l.map (·.1)).Nodup → preprocessHosts so es l = .ok r →
    ∃ hs, Each HostOf es hs ∧ r = l ++ hs ∧ (r.map (·.1)).Nodup
  | [], l, r, hn, h => by cases h; exact ⟨[], .nil, by simp, hn⟩
  | e :: es, l, r, hn, h => by
    rw [preprocessHosts] at h
    cases ha : addHost so l e with
    | error x => rw [ha] at h; cases h
    | ok l' =>
      rw [ha] at h
      obtain ⟨x, h1, h2, rfl⟩ := addHost_ok ha
      have hn' : ((l ++ [x]).map (·.1)).Nodup := by
        rw [List.map_append, List.nodup_append]
        exact ⟨hn, by simp, fun a ha b hb => by
          simp only [List.map_cons, List.map_nil, List.mem_singleton] at hb
          rintro rfl
          exact h2 (hb ▸ ha)⟩
      obtain ⟨hs, h3, rfl, h4⟩ := preprocessHosts_ok hn' h
      exact ⟨x :: hs, .cons h1 h3, by simp, h4⟩

theorem preprocessHosts_of {so : SetOrder} : ∀ {es : List (Entry HostDecl)} {l : Decls HostDecl} {hosts : List (Str × List Str)},
    Each (fun e h => Names e h.1 h.2) es hosts → (l.map (·.1) ++ hosts.map (·.1)).Nodup → ∃ r, preprocessHosts so es l = .ok r
  | [], l, _, .nil, _ => ⟨l, rfl⟩
  | e :: es, l, (name, groups) :: hosts, .cons h1 h2, hn => by
    have hnew : name ∉ l.map (·.1) := fun h => by
      rw [List.nodup_append] at hn
      exact hn.2.2 _ h _ (by simp) rfl
    obtain ⟨x, rfl, hx⟩ := addHost_of (so := so) h1 hnew
    rw [preprocessHosts, hx]
    exact preprocessHosts_of (l := l ++ [x]) h2 (by simpa using hn)

theorem Each.mem_left {α β : Type} {R : α → β → Prop} : ∀ {as : List α} {bs : List β}, Each R as bs → ∀ a ∈ as, ∃ b ∈ bs, R a b
  | _, _, .nil, _, h => by cases h
  | _, _, .cons h1 h2, a, h => by
    rcases List.mem_cons.mp h with rfl | h
    · exact ⟨_, by simp, h1⟩
    · obtain ⟨b, hb, hr⟩ := h2.mem_left a h
      exact ⟨b, by simp [hb], hr⟩

theorem Each.mem_right {α β : Type} {R : α → β → Prop} : ∀ {as : List α} {bs : List β}, Each R as bs → ∀ b ∈ bs, ∃ a ∈ as, R a b
  | _, _, .nil, _, h => by cases h
  | _, _, .cons h1 h2, b, h => by
    rcases List.mem_cons.mp h with rfl | h
    · exact ⟨_, by simp, h1⟩
    · obtain ⟨a, ha, hr⟩ := h2.mem_right b h
      exact ⟨a, by simp [ha], hr⟩

theorem Each.map_right {α β γ : Type} {R : α → β → Prop} {S : α → γ → Prop} {f : β → γ} (h : ∀ a b, R a b → S a (f b)) :
    ∀ {as : List α} {bs : List β}, Each R as bs → Each S as (bs.map f)
  | _, _, .nil => .nil
  | _, _, .cons h1 h2 => .cons (h _ _ h1) (h2.map_right h)

end Verif.Inventory
