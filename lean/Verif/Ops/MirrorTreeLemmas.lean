/-
What `os.walk` yields for a directory tree.
-/
import Verif.Ops.MirrorPathLemmas

namespace Verif.Ops

open Script Remote

mutual
/-- The directories of a tree with their entries, in the order of `os.walk`. -/
def places (p : Loc) : Tree → List (Loc × List (Str × Tree))
  | .dir entries => (p, entries) :: placesIn p entries
  | _ => []
def placesIn (p : Loc) : List (Str × Tree) → List (Loc × List (Str × Tree))
  | [] => []
  | (n, t) :: r => places (p ++ [n]) t ++ placesIn p r
end

mutual
theorem walkTree_places (p : Loc) : ∀ t, walkTree p t = (places p t).map fun x => walkItem x.1 x.2
  | .dir entries => by rw [walkTree, places, List.map_cons, walkEntries_places]
  | .file _ => rfl
  | .fileLink _ => rfl
  | .dirLink => rfl
  | .special => rfl
theorem walkEntries_places (p : Loc) : ∀ es, walkEntries p es = (placesIn p es).map fun x => walkItem x.1 x.2
  | [] => rfl
  | (n, t) :: r => by rw [walkEntries, placesIn, List.map_append, walkTree_places, walkEntries_places]
end

/-- The entries, of all directories, that `f` selects. -/
def chosen (f : Tree → Bool) (l : List (Loc × List (Str × Tree))) : List (Loc × Tree) :=
  l.flatMap fun x => (x.2.filter fun e => f e.2).map fun e => (x.1 ++ [e.1], e.2)

theorem chosen_cons (f : Tree → Bool) (x : Loc × List (Str × Tree)) (l : List (Loc × List (Str × Tree))) :
    chosen f (x :: l) = ((x.2.filter fun e => f e.2).map fun e => (x.1 ++ [e.1], e.2)) ++ chosen f l := rfl

theorem chosen_append (f : Tree → Bool) (a b : List (Loc × List (Str × Tree))) : chosen f (a ++ b) = chosen f a ++ chosen f b := by
  unfold chosen; rw [List.flatMap_append]

/-! ### Which -/

mutual
theorem places_at (p : Loc) : ∀ t x, x ∈ places p t → ∃ r, x.1 = p ++ r ∧ t.At r (.dir x.2)
  | .dir entries, x, h => by
    rw [places, List.mem_cons] at h
    rcases h with rfl | h
    · exact ⟨[], by simp, .here _⟩
    · obtain ⟨n, t, r, hm, hx, ha⟩ := placesIn_at p entries x h
      exact ⟨n :: r, by rw [hx], .inside hm ha⟩
  | .file _, _, h => by cases h
  | .fileLink _, _, h => by cases h
  | .dirLink, _, h => by cases h
  | .special, _, h => by cases h
theorem placesIn_at (p : Loc) : ∀ es x, x ∈ placesIn p es → ∃ n t r, (n, t) ∈ es ∧ x.1 = p ++ n :: r ∧ t.At r (.dir x.2)
  | [], _, h => by cases h
  | (n, t) :: es, x, h => by
    rw [placesIn, List.mem_append] at h
    rcases h with h | h
    · obtain ⟨r, hx, ha⟩ := places_at (p ++ [n]) t x h
      exact ⟨n, t, r, by simp, by rw [hx]; simp, ha⟩
    · obtain ⟨m, t', r, hm, hx, ha⟩ := placesIn_at p es x h
      exact ⟨m, t', r, by simp [hm], hx, ha⟩
end

theorem placesIn_mem {p : Loc} {n : Str} {t : Tree} {x : Loc × List (Str × Tree)} : ∀ {es}, (n, t) ∈ es → x ∈ places (p ++ [n]) t → x ∈ placesIn p es
  | (m, t') :: es, h, hx => by
    rw [placesIn, List.mem_append]
    rcases List.mem_cons.mp h with h | h
    · cases h; exact .inl hx
    · exact .inr (placesIn_mem h hx)

theorem at_places {t u : Tree} {r : Loc} (h : t.At r u) : ∀ (p : Loc) {es}, u = .dir es → (p ++ r, es) ∈ places p t := by
  induction h with
  | here t => intro p es hu; subst hu; rw [places]; simp
  | @inside entries n sub t rel hm _ ih =>
    intro p es hu
    rw [places, List.mem_cons]
    refine .inr (placesIn_mem hm ?_)
    have := ih (p ++ [n]) hu
    simpa using this

theorem at_append {t u v : Tree} {a b : Loc} (h : t.At a u) (h2 : u.At b v) : t.At (a ++ b) v := by
  induction h with
  | here => exact h2
  | inside hm _ ih => exact .inside hm (ih h2)

theorem at_snoc {t v : Tree} {a : Loc} {n : Str} (h : t.At (a ++ [n]) v) : ∃ es, t.At a (.dir es) ∧ (n, v) ∈ es := by
  induction a generalizing t with
  | nil =>
    cases h with
    | inside hm ha => cases ha; exact ⟨_, .here _, hm⟩
  | cons c r ih =>
    cases h with
    | inside hm ha =>
      obtain ⟨es, h1, h2⟩ := ih ha
      exact ⟨es, .inside hm h1, h2⟩

theorem Tree.Proper.sub {es : List (Str × Tree)} {n : Str} {t : Tree} (h : Tree.Proper (.dir es)) (hm : (n, t) ∈ es) : t.Proper :=
  fun rel entries ha => h (n :: rel) entries (.inside hm ha)

theorem at_names {t v : Tree} {a : Loc} (hp : t.Proper) (h : t.At a v) : ∀ n ∈ a, FileName n := by
  induction h with
  | here => simp
  | inside hm ha ih =>
    intro n hn
    rcases List.mem_cons.mp hn with rfl | hn
    · exact (hp [] _ (.here _)).2 _ hm
    · exact ih (hp.sub hm) n hn

theorem at_unique {t u v : Tree} {a : Loc} (hp : t.Proper) (h : t.At a u) (h2 : t.At a v) : u = v := by
  induction h with
  | here => cases h2; rfl
  | @inside es n sub t rel hm ha ih =>
    cases h2 with
    | @inside _ _ sub' _ _ hm' ha' =>
      have hnd := (hp [] _ (.here _)).1
      have : sub = sub' := by
        clear ih ha ha' hp
        induction es with
        | nil => cases hm
        | cons e es ih =>
          rw [List.map_cons, List.nodup_cons] at hnd
          rcases List.mem_cons.mp hm with h1 | h1 <;> rcases List.mem_cons.mp hm' with h2 | h2
          · rw [← h1] at h2; cases h2; rfl
          · exfalso; apply hnd.1; rw [← h1]; exact List.mem_map.mpr ⟨_, h2, rfl⟩
          · exfalso; apply hnd.1; rw [← h2]; exact List.mem_map.mpr ⟨_, h1, rfl⟩
          · exact ih h1 h2 hnd.2
      subst this
      exact ih (hp.sub hm) ha'

theorem mem_chosen {f : Tree → Bool} {es : List (Str × Tree)} {x : Loc × Tree} :
    x ∈ chosen f (places [] (.dir es)) ↔ x.1 ≠ [] ∧ Tree.At (.dir es) x.1 x.2 ∧ f x.2 = true := by
  obtain ⟨rel, t⟩ := x
  unfold chosen
  rw [List.mem_flatMap]
  constructor
  · rintro ⟨⟨p, es'⟩, hy, hx⟩
    obtain ⟨⟨n, u⟩, he, hx⟩ := List.mem_map.mp hx
    cases hx
    rw [List.mem_filter] at he
    obtain ⟨r, hr, ha⟩ := places_at [] _ _ hy
    simp only [List.nil_append] at hr ha
    subst hr
    exact ⟨by simp, at_append ha (.inside he.1 (.here _)), he.2⟩
  · rintro ⟨hne, ha, hf⟩
    simp only at hne ha hf
    obtain ⟨a, n, rfl⟩ : ∃ a n, rel = a ++ [n] := ⟨_, _, (List.dropLast_concat_getLast hne).symm⟩
    obtain ⟨es', h1, h2⟩ := at_snoc ha
    refine ⟨_, at_places h1 [] rfl, ?_⟩
    rw [List.mem_map]
    exact ⟨(n, t), List.mem_filter.mpr ⟨h2, hf⟩, by simp⟩

/-! ### Once -/

theorem chosen_prefix {f : Tree → Bool} {p : Loc} {t : Tree} {x : Loc × Tree} (h : x ∈ chosen f (places p t)) : ∃ n r, x.1 = p ++ n :: r := by
  unfold chosen at h
  rw [List.mem_flatMap] at h
  obtain ⟨y, hy, hx⟩ := h
  obtain ⟨e, _, rfl⟩ := List.mem_map.mp hx
  obtain ⟨r, hr, _⟩ := places_at p t y hy
  rw [hr]
  cases r with
  | nil => exact ⟨e.1, [], by simp⟩
  | cons c r => exact ⟨c, r ++ [e.1], by simp⟩

theorem chosenIn_prefix {f : Tree → Bool} {p : Loc} {es : List (Str × Tree)} {x : Loc × Tree} (h : x ∈ chosen f (placesIn p es)) :
    ∃ n m r, n ∈ es.map (·.1) ∧ x.1 = p ++ n :: m :: r := by
  unfold chosen at h
  rw [List.mem_flatMap] at h
  obtain ⟨y, hy, hx⟩ := h
  obtain ⟨e, _, rfl⟩ := List.mem_map.mp hx
  obtain ⟨n, t, r, hm, hr, _⟩ := placesIn_at p es y hy
  rw [hr]
  refine ⟨n, ?_⟩
  cases r with
  | nil => exact ⟨e.1, [], List.mem_map.mpr ⟨_, hm, rfl⟩, by simp⟩
  | cons c r => exact ⟨c, r ++ [e.1], List.mem_map.mpr ⟨_, hm, rfl⟩, by simp⟩

theorem nodup_map_inj {α β : Type} {f : α → β} (hf : ∀ a b, f a = f b → a = b) : ∀ {l : List α}, l.Nodup → (l.map f).Nodup
  | [], _ => by simp
  | a :: l, h => by
    rw [List.nodup_cons] at h
    rw [List.map_cons, List.nodup_cons]
    refine ⟨fun hm => ?_, nodup_map_inj hf h.2⟩
    obtain ⟨b, hb, he⟩ := List.mem_map.mp hm
    rw [hf _ _ he] at hb
    exact h.1 hb

theorem nodup_filter_map {es : List (Str × Tree)} {f : Str × Tree → Bool} (p : Loc) (h : (es.map (·.1)).Nodup) :
    ((es.filter f).map fun e => p ++ [e.1]).Nodup := by
  have h1 : ((es.filter f).map (·.1)).Nodup := h.sublist ((List.filter_sublist).map _)
  have := nodup_map_inj (f := fun n : Str => p ++ [n]) (fun a b h => by simpa using h) h1
  rwa [List.map_map] at this

mutual
theorem chosen_nodup (f : Tree → Bool) (p : Loc) : ∀ t : Tree, t.Proper → ((chosen f (places p t)).map (·.1)).Nodup
  | .dir es, hp => by
    rw [places, chosen_cons, List.map_append, List.map_map]
    have hnd := (hp [] es (.here _)).1
    rw [List.nodup_append]
    refine ⟨nodup_filter_map p hnd, chosenIn_nodup f p es hnd (fun n t h => hp.sub h), ?_⟩
    rintro a ha b hb rfl
    obtain ⟨e, _, rfl⟩ := List.mem_map.mp ha
    obtain ⟨x, hx, he⟩ := List.mem_map.mp hb
    obtain ⟨n, m, r, _, hr⟩ := chosenIn_prefix hx
    simp only [Function.comp] at he
    rw [hr] at he
    have := congrArg List.length he
    simp at this
  | .file _, _ => by simp [places, chosen]
  | .fileLink _, _ => by simp [places, chosen]
  | .dirLink, _ => by simp [places, chosen]
  | .special, _ => by simp [places, chosen]
theorem chosenIn_nodup (f : Tree → Bool) (p : Loc) : ∀ es : List (Str × Tree), (es.map (·.1)).Nodup → (∀ n t, (n, t) ∈ es → t.Proper) →
    ((chosen f (placesIn p es)).map (·.1)).Nodup
  | [], _, _ => by simp [placesIn, chosen]
  | (n, t) :: es, hnd, hp => by
    rw [List.map_cons, List.nodup_cons] at hnd
    rw [placesIn, chosen_append, List.map_append, List.nodup_append]
    refine ⟨chosen_nodup f _ t (hp n t (by simp)), chosenIn_nodup f p es hnd.2 (fun m u h => hp m u (by simp [h])), ?_⟩
    rintro a ha b hb rfl
    obtain ⟨x, hx, rfl⟩ := List.mem_map.mp ha
    obtain ⟨y, hy, he⟩ := List.mem_map.mp hb
    obtain ⟨m, r, hr⟩ := chosen_prefix hx
    obtain ⟨k, m', r', hk, hr'⟩ := chosenIn_prefix hy
    rw [hr, hr', List.append_assoc] at he
    have := List.append_cancel_left he
    simp only [List.cons_append, List.nil_append, List.cons.injEq] at this
    apply hnd.1
    rw [← this.1]; exact hk
end

/-! ### Parents first -/

/-- The parent of everything in the list is known or comes earlier. -/
def ParentsFirst : List Loc → List Loc → Prop
  | _, [] => True
  | known, x :: r => (∃ p n, x = p ++ [n] ∧ p ∈ known) ∧ ParentsFirst (x :: known) r

theorem ParentsFirst.mono : ∀ {l a b}, (∀ x ∈ a, x ∈ b) → ParentsFirst a l → ParentsFirst b l
  | [], _, _, _, _ => trivial
  | x :: r, a, b, h, ⟨⟨p, n, he, hp⟩, h2⟩ => by
    refine ⟨⟨p, n, he, h p hp⟩, ParentsFirst.mono ?_ h2⟩
    intro y hy
    rcases List.mem_cons.mp hy with rfl | hy
    · simp
    · exact List.mem_cons_of_mem _ (h y hy)

theorem parentsFirst_append : ∀ {l1 l2 k}, ParentsFirst k l1 → ParentsFirst (l1 ++ k) l2 → ParentsFirst k (l1 ++ l2)
  | [], _, _, _, h => h
  | x :: r, l2, k, ⟨h1, h2⟩, h => by
    refine ⟨h1, parentsFirst_append h2 (h.mono ?_)⟩
    intro y hy
    simp only [List.mem_append, List.mem_cons] at hy ⊢
    rcases hy with (rfl | h) | h
    · exact .inr (.inl rfl)
    · exact .inl h
    · exact .inr (.inr h)

theorem parentsFirst_of_mem {p : Loc} : ∀ {l k}, p ∈ k → (∀ x ∈ l, ∃ n, x = p ++ [n]) → ParentsFirst k l
  | [], _, _, _ => trivial
  | x :: r, k, hp, h => by
    obtain ⟨n, hn⟩ := h x (by simp)
    exact ⟨⟨p, n, hn, hp⟩, parentsFirst_of_mem (List.mem_cons_of_mem _ hp) (fun y hy => h y (by simp [hy]))⟩

mutual
theorem chosen_ordered (p : Loc) : ∀ (t : Tree) (k : List Loc), p ∈ k → ParentsFirst k ((chosen Tree.isDir (places p t)).map (·.1))
  | .dir es, k, hk => by
    rw [places, chosen_cons, List.map_append, List.map_map]
    refine parentsFirst_append (parentsFirst_of_mem hk ?_) (chosenIn_ordered p es _ ?_)
    · intro x hx
      obtain ⟨e, _, rfl⟩ := List.mem_map.mp hx
      exact ⟨e.1, rfl⟩
    · intro n t hm hd
      refine List.mem_append_left _ ?_
      rw [List.mem_map]
      exact ⟨(n, t), List.mem_filter.mpr ⟨hm, hd⟩, rfl⟩
  | .file _, _, _ => trivial
  | .fileLink _, _, _ => trivial
  | .dirLink, _, _ => trivial
  | .special, _, _ => trivial
theorem chosenIn_ordered (p : Loc) : ∀ (es : List (Str × Tree)) (k : List Loc), (∀ n t, (n, t) ∈ es → t.isDir = true → p ++ [n] ∈ k) →
    ParentsFirst k ((chosen Tree.isDir (placesIn p es)).map (·.1))
  | [], _, _ => trivial
  | (n, t) :: es, k, h => by
    rw [placesIn, chosen_append, List.map_append]
    refine parentsFirst_append ?_ (chosenIn_ordered p es _ (fun m u hm hd => List.mem_append_right _ (h m u (by simp [hm]) hd)))
    by_cases hd : t.isDir = true
    · exact chosen_ordered (p ++ [n]) t k (h n t (by simp) hd)
    · have : places (p ++ [n]) t = [] := by
        cases t <;> first | rfl | exact absurd rfl hd
      rw [this]; trivial
end

/-! ### The lists of `upload_dir` -/

/-- The directories of the destination, relative to it. -/
def relDirs (es : List (Str × Tree)) : List Loc := [] :: (chosen Tree.isDir (places [] (.dir es))).map (·.1)
/-- The other entries. -/
def relFiles (es : List (Str × Tree)) : List (Loc × Tree) := chosen (fun t => !t.isDir) (places [] (.dir es))

theorem places_names {es : List (Str × Tree)} (hp : Tree.Proper (.dir es)) {x : Loc × List (Str × Tree)} (hx : x ∈ places [] (.dir es)) :
    (∀ n ∈ x.1, FileName n) ∧ ∀ e ∈ x.2, FileName e.1 := by
  obtain ⟨r, hr, ha⟩ := places_at [] _ x hx
  simp only [List.nil_append] at hr
  rw [hr]
  exact ⟨at_names hp ha, (hp _ _ ha).2⟩

theorem flatMap_congr {α β : Type} {f g : α → List β} : ∀ {l : List α}, (∀ x ∈ l, f x = g x) → l.flatMap f = l.flatMap g
  | [], _ => rfl
  | a :: l, h => by
    rw [List.flatMap_cons, List.flatMap_cons, h a (by simp), flatMap_congr (fun x hx => h x (by simp [hx]))]

theorem destDirs_eq {es : List (Str × Tree)} (hp : Tree.Proper (.dir es)) {names : List Str} (hn : ∀ n ∈ names, FileName n) :
    destDirs (pathOf names) (walkTree [] (.dir es)) = (relDirs es).map fun rel => pathOf (names ++ rel) := by
  unfold destDirs relDirs
  rw [List.map_cons, List.append_nil, walkTree_places]
  congr 1
  rw [List.flatMap_map, List.map_map]
  unfold chosen
  rw [List.map_flatMap]
  refine flatMap_congr fun x hx => ?_
  obtain ⟨h1, h2⟩ := places_names hp hx
  simp only [walkItem, List.map_map]
  rw [destRoot_eq hn h1]
  refine List.map_congr_left fun e he => ?_
  simp only [Function.comp]
  rw [pathJoin_name _ (h2 e ((List.mem_filter.mp he).1)), List.append_assoc]
  intro n hm
  rcases List.mem_append.mp hm with hm | hm
  · exact hn n hm
  · exact h1 n hm

theorem destFiles_eq {es : List (Str × Tree)} (hp : Tree.Proper (.dir es)) {names : List Str} (hn : ∀ n ∈ names, FileName n) :
    destFiles (pathOf names) (walkTree [] (.dir es)) = (relFiles es).map fun x => (x.2, pathOf (names ++ x.1)) := by
  unfold destFiles relFiles
  rw [walkTree_places, List.flatMap_map]
  unfold chosen
  rw [List.map_flatMap]
  refine flatMap_congr fun x hx => ?_
  obtain ⟨h1, h2⟩ := places_names hp hx
  simp only [walkItem, List.map_map]
  rw [destRoot_eq hn h1]
  refine List.map_congr_left fun e he => ?_
  simp only [Function.comp]
  rw [pathJoin_name _ (h2 e ((List.mem_filter.mp he).1)), List.append_assoc]
  intro n hm
  rcases List.mem_append.mp hm with hm | hm
  · exact hn n hm
  · exact h1 n hm

theorem relDirs_mem {es : List (Str × Tree)} {rel : Loc} : rel ∈ relDirs es ↔ ∃ t, Tree.At (.dir es) rel t ∧ t.isDir = true := by
  unfold relDirs
  rw [List.mem_cons, List.mem_map]
  constructor
  · rintro (rfl | ⟨x, hx, rfl⟩)
    · exact ⟨_, .here _, rfl⟩
    · obtain ⟨_, h1, h2⟩ := mem_chosen.mp hx
      exact ⟨_, h1, h2⟩
  · rintro ⟨t, h1, h2⟩
    by_cases hr : rel = []
    · exact .inl hr
    · exact .inr ⟨(rel, t), mem_chosen.mpr ⟨hr, h1, h2⟩, rfl⟩

theorem at_nil {t u : Tree} (h : t.At [] u) : u = t := by
  cases h; rfl

theorem relFiles_mem {es : List (Str × Tree)} {x : Loc × Tree} : x ∈ relFiles es ↔ Tree.At (.dir es) x.1 x.2 ∧ x.2.isDir = false := by
  unfold relFiles
  rw [mem_chosen]
  simp only [Bool.not_eq_true']
  constructor
  · rintro ⟨_, h1, h2⟩; exact ⟨h1, h2⟩
  · rintro ⟨h1, h2⟩
    refine ⟨fun h => ?_, h1, h2⟩
    rw [h] at h1
    rw [at_nil h1] at h2
    cases h2

theorem relDirs_nodup {es : List (Str × Tree)} (hp : Tree.Proper (.dir es)) : (relDirs es).Nodup := by
  unfold relDirs
  rw [List.nodup_cons]
  refine ⟨fun h => ?_, chosen_nodup _ _ _ hp⟩
  obtain ⟨x, hx, he⟩ := List.mem_map.mp h
  exact (mem_chosen.mp hx).1 he

theorem relFiles_nodup {es : List (Str × Tree)} (hp : Tree.Proper (.dir es)) : ((relFiles es).map (·.1)).Nodup := chosen_nodup _ _ _ hp

theorem rel_disjoint {es : List (Str × Tree)} (hp : Tree.Proper (.dir es)) {rel : Loc} (h1 : rel ∈ relDirs es) (h2 : rel ∈ (relFiles es).map (·.1)) : False := by
  obtain ⟨x, hx, rfl⟩ := List.mem_map.mp h2
  obtain ⟨ha, hf⟩ := relFiles_mem.mp hx
  obtain ⟨t, hb, hd⟩ := relDirs_mem.mp h1
  rw [at_unique hp ha hb, hd] at hf
  cases hf

theorem relDirs_ordered (es : List (Str × Tree)) : ParentsFirst [[]] ((chosen Tree.isDir (places [] (.dir es))).map (·.1)) :=
  chosen_ordered [] _ _ (by simp)

theorem relFiles_parent {es : List (Str × Tree)} {x : Loc × Tree} (h : x ∈ relFiles es) : ∃ p n, x.1 = p ++ [n] ∧ p ∈ relDirs es := by
  have h' := h
  unfold relFiles at h'
  obtain ⟨hne, ha, _⟩ := mem_chosen.mp h'
  obtain ⟨a, n, he⟩ : ∃ a n, x.1 = a ++ [n] := ⟨_, _, (List.dropLast_concat_getLast hne).symm⟩
  rw [he] at ha
  obtain ⟨es', h1, _⟩ := at_snoc ha
  exact ⟨a, n, he, relDirs_mem.mpr ⟨_, h1, rfl⟩⟩

end Verif.Ops
