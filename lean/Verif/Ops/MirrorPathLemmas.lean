/-
Absolute paths in normal form.
-/
import Verif.Ops.MirrorSpec
import Verif.Remote.FsLemmas
import Verif.Remote.CoreLemmas

namespace Verif.Ops

open Script Remote

theorem splitSlash_eq : ∀ s : Str, splitSlash s = Remote.splitSlash s
  | [] => rfl
  | c :: r => by
    by_cases hc : c = 47
    · subst hc
      rw [splitSlash, Remote.splitSlash, if_pos rfl, splitSlash_eq r]
    · rw [splitSlash, Remote.splitSlash, if_neg hc, splitSlash_eq r]
      · rfl
      · exact hc

theorem splitSlash_ne : ∀ s : Str, Remote.splitSlash s ≠ []
  | [] => by simp [Remote.splitSlash]
  | c :: r => by
    rw [Remote.splitSlash]
    split
    · simp
    · split <;> simp

/-- One name, then a slash, then the rest. -/
theorem splitSlash_name : ∀ {n : Str} (r : Str), 47 ∉ n → Remote.splitSlash (n ++ 47 :: r) = n :: Remote.splitSlash r
  | [], r, _ => by simp [Remote.splitSlash]
  | c :: n, r, h => by
    simp only [List.mem_cons, not_or] at h
    rw [List.cons_append, Remote.splitSlash, if_neg (fun hc => h.1 hc.symm), splitSlash_name r h.2]

theorem splitSlash_last : ∀ {n : Str}, 47 ∉ n → Remote.splitSlash n = [n]
  | [], _ => by simp [Remote.splitSlash]
  | c :: n, h => by
    simp only [List.mem_cons, not_or] at h
    rw [Remote.splitSlash, if_neg (fun hc => h.1 hc.symm), splitSlash_last h.2]

theorem splitSlash_join : ∀ {names : List Str}, names ≠ [] → (∀ n ∈ names, 47 ∉ n) → Remote.splitSlash (Py.join p!"/" names) = names
  | [], h, _ => absurd rfl h
  | [n], _, h => splitSlash_last (h n (by simp))
  | n :: m :: r, _, h => by
    have ih := splitSlash_join (names := m :: r) (by simp) (fun x hx => h x (by simp only [List.mem_cons] at hx ⊢; exact .inr hx))
    rw [Py.join, List.append_assoc]
    show Remote.splitSlash (n ++ 47 :: Py.join p!"/" (m :: r)) = _
    rw [splitSlash_name _ (h n (by simp)), ih]

theorem splitSlash_pathOf {names : List Str} (h : ∀ n ∈ names, FileName n) :
    Remote.splitSlash (pathOf names) = [] :: (if names = [] then [[]] else names) := by
  unfold pathOf
  rw [Remote.splitSlash, if_pos rfl]
  by_cases hn : names = []
  · subst hn; rfl
  · rw [splitSlash_join hn (fun n hm => (h n hm).slash), if_neg hn]

theorem components_pathOf {names : List Str} (h : ∀ n ∈ names, FileName n) : components (pathOf names) = names := by
  unfold components
  rw [splitSlash_pathOf h]
  by_cases hn : names = []
  · subst hn; rfl
  · rw [if_neg hn, List.filter_cons, if_neg (by simp)]
    rw [List.filter_eq_self]
    intro n hm
    simp only [ne_eq, decide_eq_true_eq]
    exact ⟨(h n hm).nonempty, (h n hm).dot⟩

theorem normLoop_names : ∀ {names : List Str} (acc : List Str), (∀ n ∈ names, FileName n) → normLoop names acc = acc ++ names
  | [], acc, _ => by simp [normLoop]
  | n :: r, acc, h => by
    have hn := h n (by simp)
    rw [normLoop, if_neg (by simp [hn.nonempty, hn.dot]), if_neg hn.dotdot, normLoop_names _ (fun x hx => h x (by simp [hx]))]
    simp

theorem normLoop_skip (acc : List Str) (r : List Str) : normLoop ([] :: r) acc = normLoop r acc := by
  rw [normLoop]; simp

theorem join_head {names : List Str} (h : ∀ n ∈ names, FileName n) : (Py.join p!"/" names).head? ≠ some 47 := by
  cases names with
  | nil => simp [Py.join]
  | cons n r =>
    have hn := h n (by simp)
    cases hc : n with
    | nil => exact absurd hc hn.nonempty
    | cons c s =>
      have : c ≠ 47 := by
        intro hh; subst hh; apply hn.slash; rw [hc]; simp
      cases r with
      | nil => simp [Py.join, this]
      | cons m r => simp [Py.join, this]

theorem root_slash {s : Str} (h : s.head? ≠ some 47) : Py.startsWith (47 :: s) p!"//" = false := by
  unfold Py.startsWith
  cases s with
  | nil => rfl
  | cons c r =>
    have : (47 == c) = false := by
      simp only [List.head?_cons, ne_eq, Option.some.injEq] at h
      simp only [beq_eq_false_iff_ne, ne_eq]
      exact fun hh => h hh.symm
    show (47 == 47 && (47 == c && _)) = false
    rw [this]; rfl

theorem normPath_pathOf {names : List Str} (h : ∀ n ∈ names, FileName n) : normPath (pathOf names) = pathOf names := by
  unfold normPath
  rw [splitSlash_eq, splitSlash_pathOf h, normLoop_skip]
  have : normLoop (if names = [] then [[]] else names) [] = names := by
    split
    · next h => subst h; rfl
    · rw [normLoop_names _ h]; rfl
  rw [this]
  unfold pathOf
  rw [root_slash (join_head h)]
  rfl

theorem join_append : ∀ {a b : List Str}, a ≠ [] → b ≠ [] → Py.join p!"/" (a ++ b) = Py.join p!"/" a ++ p!"/" ++ Py.join p!"/" b
  | [], _, h, _ => absurd rfl h
  | [x], [], _, h => absurd rfl h
  | [x], y :: r, _, _ => by simp [Py.join]
  | x :: y :: r, b, _, hb => by
    have ih := join_append (a := y :: r) (by simp) hb
    simp only [List.cons_append] at ih ⊢
    rw [Py.join, Py.join, ih]
    simp

theorem endsWith_slash {s : Str} : Py.endsWith s p!"/" = true ↔ s.getLast? = some 47 := by
  unfold Py.endsWith
  rw [List.isSuffixOf_iff_suffix]
  constructor
  · rintro ⟨t, rfl⟩
    show (t ++ [47]).getLast? = _
    simp
  · intro h
    obtain ⟨t, rfl⟩ := List.getLast?_eq_some_iff.mp h
    exact ⟨t, rfl⟩

theorem join_last : ∀ {names : List Str}, (∀ n ∈ names, FileName n) → (Py.join p!"/" names).getLast? ≠ some 47
  | [], _ => by simp [Py.join]
  | [n], h => by
    intro hl
    rw [Py.join] at hl
    exact (h n (by simp)).slash (List.mem_of_getLast? hl)
  | n :: m :: r, h => by
    have hrec := join_last (names := m :: r) (fun x hx => h x (by simp only [List.mem_cons] at hx ⊢; exact .inr hx))
    rw [Py.join, List.getLast?_append]
    cases hj : (Py.join p!"/" (m :: r)).getLast? with
    | some c => rw [hj] at hrec; simpa using hrec
    | none =>
      exfalso
      rw [List.getLast?_eq_none_iff] at hj
      have hm := (h m (by simp)).nonempty
      cases r with
      | nil => exact hm hj
      | cons x r => simp [Py.join] at hj

theorem pathOf_last {names : List Str} (hne : names ≠ []) (h : ∀ n ∈ names, FileName n) : Py.endsWith (pathOf names) p!"/" = false := by
  rw [Bool.eq_false_iff]
  intro he
  rw [endsWith_slash] at he
  unfold pathOf at he
  cases hj : Py.join p!"/" names with
  | nil =>
    cases names with
    | nil => exact hne rfl
    | cons n r =>
      have := (h n (by simp)).nonempty
      cases r with
      | nil => exact this hj
      | cons m r => simp [Py.join] at hj
  | cons c s =>
    rw [hj] at he
    rw [List.getLast?_cons_cons, ← hj] at he
    exact join_last h he

theorem pathOf_append {a b : List Str} (ha : a ≠ []) (hb : b ≠ []) : pathOf (a ++ b) = pathOf a ++ p!"/" ++ Py.join p!"/" b := by
  unfold pathOf
  rw [join_append ha hb]
  simp

/-- Appending a relative path. -/
theorem pathJoin_pathOf {names rel : List Str} (hrel : rel ≠ []) (hn : ∀ n ∈ names, FileName n) (hr : ∀ n ∈ rel, FileName n) :
    pathJoin (pathOf names) (Py.join p!"/" rel) = pathOf (names ++ rel) := by
  unfold pathJoin
  have hh := join_head hr
  split
  · next h => rw [h] at hh; exact absurd rfl hh
  · by_cases hnn : names = []
    · subst hnn
      rw [if_pos (by simp [pathOf, Py.join, Py.endsWith])]
      simp [pathOf, Py.join]
    · rw [pathOf_last hnn hn, if_neg (by simp [pathOf]), pathOf_append hnn hrel]

theorem pathJoin_name {names : List Str} {n : Str} (hn : ∀ n ∈ names, FileName n) (h : FileName n) : pathJoin (pathOf names) n = pathOf (names ++ [n]) :=
  pathJoin_pathOf (rel := [n]) (by simp) hn (by simpa using h)

theorem normPath_dot {names : List Str} (h : ∀ n ∈ names, FileName n) : normPath (pathJoin (pathOf names) p!".") = pathOf names := by
  by_cases hn : names = []
  · subst hn; rfl
  · have he : pathJoin (pathOf names) p!"." = 47 :: Py.join p!"/" (names ++ [p!"."]) := by
      unfold pathJoin
      rw [pathOf_last hn h]
      rw [join_append hn (by simp)]
      simp [pathOf, Py.join]
    rw [he]
    unfold normPath
    have hsl : ∀ n ∈ names ++ [p!"."], 47 ∉ n := by
      intro n hm
      rcases List.mem_append.mp hm with hm | hm
      · exact (h n hm).slash
      · simp only [List.mem_singleton] at hm; subst hm; decide
    rw [splitSlash_eq, Remote.splitSlash, if_pos rfl, splitSlash_join (by simp) hsl, normLoop_skip]
    have : normLoop (names ++ [p!"."]) [] = names := by
      have key : ∀ (l acc : List Str), (∀ n ∈ l, FileName n) → normLoop (l ++ [p!"."]) acc = acc ++ l := by
        intro l
        induction l with
        | nil => intro acc _; simp [normLoop]
        | cons n r ih =>
          intro acc hl
          have hn := hl n (by simp)
          rw [List.cons_append, normLoop, if_neg (by simp [hn.nonempty, hn.dot]), if_neg hn.dotdot, ih _ (fun x hx => hl x (by simp [hx]))]
          simp
      rw [key _ _ h]; rfl
    rw [this]
    have hd : (Py.join p!"/" (names ++ [p!"."])).head? ≠ some 47 := by
      rw [join_append hn (by simp)]
      have := join_head h
      cases hj : Py.join p!"/" names with
      | nil =>
        cases names with
        | nil => exact absurd rfl hn
        | cons n r =>
          have hne := (h n (by simp)).nonempty
          cases r with
          | nil => exact absurd hj hne
          | cons m r => simp [Py.join] at hj
      | cons c s => rw [hj] at this; simpa using this
    rw [root_slash hd]
    rfl

/-- Where the entries of a subdirectory go. -/
theorem destRoot_eq {names rel : List Str} (hn : ∀ n ∈ names, FileName n) (hr : ∀ n ∈ rel, FileName n) :
    destRoot (pathOf names) rel = pathOf (names ++ rel) := by
  unfold destRoot relPath
  split
  · next h => subst h; rw [normPath_dot hn]; simp
  · next h =>
    rw [pathJoin_pathOf h hn hr, normPath_pathOf]
    intro n hm
    rcases List.mem_append.mp hm with hm | hm
    · exact hn n hm
    · exact hr n hm

theorem baseName_name {name : Str} (h : 47 ∉ name) (dir : Str) : baseName name = name ∧ baseName (dir ++ p!"/" ++ name) = name := by
  unfold baseName
  have hall : ∀ x ∈ name.reverse, (x != 47) = true := by
    intro x hx
    simp only [List.mem_reverse] at hx
    simp only [bne_iff_ne, ne_eq]
    rintro rfl; exact h hx
  have h1 : name.reverse.takeWhile (· != 47) = name.reverse := by
    have := List.takeWhile_append_of_pos (l₂ := []) hall
    simpa using this
  refine ⟨by rw [h1, List.reverse_reverse], ?_⟩
  rw [List.append_assoc, List.reverse_append, List.reverse_append]
  rw [List.append_assoc, List.takeWhile_append_of_pos hall]
  simp

/-- The destination directory. -/
theorem destOf_lands {src dest : Str} {names : List Str} (h : Lands src dest names) :
    destOf src dest = pathOf names ∧ ∀ n ∈ names, FileName n := by
  cases h with
  | renamed hne hn => exact ⟨by unfold destOf; rw [pathOf_last hne hn]; rfl, hn⟩
  | @child names name dir hn hname hsrc =>
    have hb : baseName src = name := by
      rcases hsrc with h | h
      · rw [h]; exact (baseName_name hname.slash []).1
      · rw [h]; exact (baseName_name hname.slash dir).2
    have hall : ∀ n ∈ names ++ [name], FileName n := by
      intro n hm
      rcases List.mem_append.mp hm with hm | hm
      · exact hn n hm
      · simp only [List.mem_singleton] at hm; rw [hm]; exact hname
    refine ⟨?_, hall⟩
    unfold destOf
    rw [hb]
    by_cases hnn : names = []
    · subst hnn
      rw [if_pos rfl, if_pos (by decide)]
      have := pathJoin_name (names := []) (by simp) hname
      simpa [pathOf, Py.join] using this
    · rw [if_neg hnn, if_pos (by rw [endsWith_slash]; simp)]
      unfold pathJoin
      have hh : ∀ r, name ≠ 47 :: r := by rintro r rfl; exact hname.slash (by simp)
      split
      · exact absurd rfl (hh _)
      · rw [if_pos (by simp [endsWith_slash])]
        rw [pathOf_append hnn (by simp)]
        simp [Py.join]

/-! ### Resolution -/

/-- Everything that was there is still of the same kind. -/
def Grows (fs fs' : Loc → Option Node) : Prop := ∀ q, fs q ≠ none → shape (fs' q) = shape (fs q)

theorem Grows.refl (fs : Loc → Option Node) : Grows fs fs := fun _ _ => rfl

theorem Grows.trans {a b c : Loc → Option Node} (h1 : Grows a b) (h2 : Grows b c) : Grows a c := by
  intro q hq
  have := h1 q hq
  rw [h2 q, this]
  intro hb
  rw [hb] at this
  exact hq (shape_none.mp this.symm)

theorem walkAux_grows {fs fs' : Loc → Option Node} (h : Grows fs fs') {L : Loc} {onLink onLink' : Loc → List Str → Except Int Loc}
    (hl : ∀ l c, onLink l c = .ok L → onLink' l c = .ok L) (cs : List Str) :
    ∀ loc, walkAux fs false onLink cs loc = .ok L → walkAux fs' false onLink' cs loc = .ok L := by
  induction cs with
  | nil => intro loc h; exact h
  | cons c r ih =>
    intro loc hw
    rw [walkAux_cons] at hw ⊢
    have hsame : ∀ q, shape (fs q) ≠ .none → shape (fs' q) = shape (fs q) := fun q hq => h q (fun hn => hq (shape_none.mpr hn))
    cases h1 : shape (fs loc) with
    | none => rw [h1] at hw; cases hw
    | link t => rw [h1] at hw; cases hw
    | leaf => rw [h1] at hw; cases hw
    | dir =>
      rw [hsame loc (by simp [h1]), h1]
      rw [h1] at hw
      simp only at hw ⊢
      by_cases hc : c = p!".."
      · rw [if_pos hc] at hw ⊢; exact ih _ hw
      · rw [if_neg hc] at hw ⊢
        cases h2 : shape (fs (loc ++ [c])) with
        | none =>
          rw [h2] at hw
          simp only at hw
          by_cases hr : r = []
          · rw [if_pos hr] at hw
            have hloc : loc ++ [c] = L := Except.ok.inj hw
            subst hr
            cases h3 : shape (fs' (loc ++ [c])) <;> simp [walkAux, hloc]
          · rw [if_neg hr] at hw; cases hw
        | dir =>
          rw [hsame _ (by simp [h2]), h2]
          rw [h2] at hw
          exact ih _ hw
        | leaf =>
          rw [hsame _ (by simp [h2]), h2]
          rw [h2] at hw
          exact ih _ hw
        | link t =>
          rw [hsame _ (by simp [h2]), h2]
          rw [h2] at hw
          simp only at hw ⊢
          split
          · rename_i hh; rw [if_pos hh] at hw; exact hw
          · rename_i hh; rw [if_neg hh] at hw; exact hl _ _ hw

theorem resolve_grows {fs fs' : Loc → Option Node} (h : Grows fs fs') {L cwd : Loc} {path : Str} (hr : resolve fs cwd path false = .ok L) :
    resolve fs' cwd path false = .ok L := by
  have key : ∀ k cs loc, walk fs false k cs loc = .ok L → walk fs' false k cs loc = .ok L := by
    intro k
    induction k with
    | zero => exact walkAux_grows h fun _ _ h => by cases h
    | succ k ih => exact walkAux_grows h fun l c h => ih c l h
  unfold resolve at hr ⊢
  split
  · rename_i hp; rw [if_pos hp] at hr; exact hr
  · rename_i hp; rw [if_neg hp] at hr; exact key _ _ _ hr

theorem walkAux_child {fs : Loc → Option Node} {L : Loc} (hL : shape (fs L) = .dir) {n : Str} (hn : n ≠ p!"..") {onLink onLink' : Loc → List Str → Except Int Loc}
    (hl : ∀ l cs, onLink l cs = .ok L → onLink' l (cs ++ [n]) = .ok (L ++ [n])) (cs : List Str) :
    ∀ loc, walkAux fs false onLink cs loc = .ok L → walkAux fs false onLink' (cs ++ [n]) loc = .ok (L ++ [n]) := by
  induction cs with
  | nil =>
    intro loc h
    have : loc = L := Except.ok.inj h
    subst this
    rw [List.nil_append, walkAux_cons, hL]
    simp only
    rw [if_neg hn]
    cases h3 : shape (fs (loc ++ [n])) <;> simp [walkAux]
  | cons c r ih =>
    intro loc hw
    rw [walkAux_cons] at hw
    rw [List.cons_append, walkAux_cons]
    cases h1 : shape (fs loc) with
    | none => rw [h1] at hw; cases hw
    | link t => rw [h1] at hw; cases hw
    | leaf => rw [h1] at hw; cases hw
    | dir =>
      rw [h1] at hw
      simp only at hw ⊢
      by_cases hc : c = p!".."
      · rw [if_pos hc] at hw ⊢; exact ih _ hw
      · rw [if_neg hc] at hw ⊢
        cases h2 : shape (fs (loc ++ [c])) with
        | none =>
          rw [h2] at hw
          simp only at hw
          by_cases hr : r = []
          · rw [if_pos hr] at hw
            have hloc : loc ++ [c] = L := Except.ok.inj hw
            rw [hloc, hL] at h2; cases h2
          · rw [if_neg hr] at hw; cases hw
        | dir => rw [h2] at hw; exact ih _ hw
        | leaf => rw [h2] at hw; exact ih _ hw
        | link t =>
          rw [h2] at hw
          simp only at hw ⊢
          by_cases hr : r = []
          · rw [if_pos ⟨hr, trivial⟩] at hw
            have hloc : loc ++ [c] = L := Except.ok.inj hw
            rw [hloc, hL] at h2; cases h2
          · rw [if_neg (fun h => hr h.1)] at hw
            rw [if_neg (by simp), ← List.append_assoc]
            exact hl _ _ hw

/-- A name in a directory. -/
theorem resolve_child {fs : Loc → Option Node} {L cwd : Loc} {names : List Str} {n : Str} (hns : ∀ n ∈ names, FileName n) (hn : FileName n)
    (hr : resolve fs cwd (pathOf names) false = .ok L) (hL : shape (fs L) = .dir) : resolve fs cwd (pathOf (names ++ [n])) false = .ok (L ++ [n]) := by
  have key : ∀ k cs loc, walk fs false k cs loc = .ok L → walk fs false k (cs ++ [n]) loc = .ok (L ++ [n]) := by
    intro k
    induction k with
    | zero => exact walkAux_child hL hn.dotdot fun _ _ h => by cases h
    | succ k ih => exact walkAux_child hL hn.dotdot fun l c h => ih c l h
  have hall : ∀ m ∈ names ++ [n], FileName m := by
    intro m hm
    rcases List.mem_append.mp hm with hm | hm
    · exact hns m hm
    · simp only [List.mem_singleton] at hm; rw [hm]; exact hn
  unfold resolve at hr ⊢
  rw [if_neg (by simp [pathOf]), components_pathOf hns] at hr
  rw [if_neg (by simp [pathOf]), components_pathOf hall]
  exact key _ _ _ hr

end Verif.Ops
