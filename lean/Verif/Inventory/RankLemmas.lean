/-
Lemmas about `rank_sort`.
-/
import Verif.Inventory.RankSpec

namespace Verif.Inventory

variable {α : Type} [DecidableEq α]

theorem Chain.trans {childs : α → List α} {a b c : α} {n m : Nat} (h : Chain childs a b n) (h' : Chain childs b c m) : Chain childs a c (n + m) := by
  induction h' with
  | here => exact h
  | step _ he ih => exact .step ih he

theorem Chain.one {childs : α → List α} {a b : α} (h : b ∈ childs a) : Chain childs a b 1 := .step (.here a) h

section
variable {vs : List α} {preds childs : α → List α} (hg : Graph vs preds childs)
include hg

theorem Chain.mem {a b : α} {n : Nat} (h : Chain childs a b n) (ha : a ∈ vs) : b ∈ vs := by
  induction h with
  | here => exact ha
  | step _ he ih => exact hg.childs _ ih _ he

theorem nodup_length_le : ∀ {l vs : List α}, l.Nodup → (∀ x ∈ l, x ∈ vs) → l.length ≤ vs.length
  | [], _, _, _ => Nat.zero_le _
  | x :: l, vs, hn, hs => by
    have hx : x ∈ vs := hs x (by simp)
    have hn := List.nodup_cons.mp hn
    have := nodup_length_le (l := l) (vs := vs.erase x) hn.2 (fun y hy => by
      refine (List.mem_erase_of_ne ?_).mpr (hs y (by simp [hy]))
      rintro rfl
      exact hn.1 hy)
    rw [List.length_erase_of_mem hx] at this
    have := List.length_pos_of_mem hx
    simp only [List.length_cons]
    omega

/-- In an acyclic graph a chain visits different vertices. -/
theorem Chain.visits (hac : Acyclic vs childs) {a b : α} {n : Nat} (h : Chain childs a b n) (ha : a ∈ vs) :
    ∃ l : List α, l.Nodup ∧ l.length = n + 1 ∧ ∀ x ∈ l, x ∈ vs ∧ ∃ k, Chain childs x b k := by
  induction h with
  | here => exact ⟨[a], by simp, rfl, fun x hx => by simp at hx; subst hx; exact ⟨ha, 0, .here _⟩⟩
  | @step b c n hc he ih =>
    obtain ⟨l, h1, h2, h3⟩ := ih
    have hcv : c ∈ vs := Chain.mem hg (.step hc he) ha
    refine ⟨c :: l, List.nodup_cons.mpr ⟨fun hcl => ?_, h1⟩, by simp [h2], ?_⟩
    · obtain ⟨_, k, hk⟩ := h3 c hcl
      have := hac c hcv _ (.step hk he)
      omega
    · intro x hx
      rcases List.mem_cons.mp hx with rfl | hx
      · exact ⟨hcv, 0, .here _⟩
      · obtain ⟨hx, k, hk⟩ := h3 x hx
        exact ⟨hx, k + 1, .step hk he⟩

theorem Chain.short (hac : Acyclic vs childs) {a b : α} {n : Nat} (h : Chain childs a b n) (ha : a ∈ vs) : n < vs.length := by
  obtain ⟨l, h1, h2, h3⟩ := Chain.visits hg hac h ha
  have := nodup_length_le hg h1 (fun x hx => (h3 x hx).1)
  omega

/-- The walk to a root ends at a vertex without predecessors that leads to where it started, or finds a cycle. -/
theorem findRoot_spec (visited : α → Bool) (root start : α) (hr : root ∈ vs) (hv : ∀ x ∈ vs, visited x = true → ∃ k, Chain childs root x k)
    (hs : ∃ k, Chain childs root start k) :
    match findRoot vs preds visited root with
    | .ok r => r ∈ vs ∧ preds r = [] ∧ ∃ k, Chain childs r start k
    | .error (.cycle l) => ∃ v ∈ l, v ∈ vs ∧ ∃ k, Chain childs v v (k + 1)
    | .error .keyError => False := by
  fun_induction findRoot vs preds visited root with
  | case1 visited root h => exact ⟨hr, h, hs⟩
  | case2 visited root x l h hx hvx =>
    obtain ⟨k, hk⟩ := hv x hx hvx
    refine ⟨x, List.mem_filter.mpr ⟨hx, hvx⟩, hx, k, ?_⟩
    rw [Nat.add_comm]
    exact (Chain.one ((hg.agree x hx root hr).mpr (by simp [h]))).trans hk
  | case3 visited root x l h hx hvx ih =>
    have h1 : Chain childs x root 1 := Chain.one ((hg.agree x hx root hr).mpr (by simp [h]))
    refine ih hx (fun y hy hvy => ?_) ?_
    · unfold assign at hvy
      split at hvy
      · next e => exact ⟨0, e ▸ .here _⟩
      · obtain ⟨k, hk⟩ := hv y hy hvy
        exact ⟨_, h1.trans hk⟩
    · obtain ⟨k, hk⟩ := hs
      exact ⟨_, h1.trans hk⟩
  | case4 visited root x l h hx => exact hx (hg.preds root hr x (by simp [h]))

omit hg in
/-- What holds while ranks are assigned. -/
structure RankInv (vs : List α) (childs : α → List α) (ranks : α → Int) (queue : List (α × α)) : Prop where
  low : ∀ v, -1 ≤ ranks v
  chain : ∀ v ∈ vs, 0 ≤ ranks v → ∃ a ∈ vs, Chain childs a v (ranks v).toNat
  queued : ∀ x ∈ queue, x.2 ∈ vs ∧ x.1 ∈ childs x.2 ∧ 0 ≤ ranks x.2
  edges : ∀ v ∈ vs, 0 ≤ ranks v → ∀ c ∈ childs v, ranks v < ranks c ∨ (c, v) ∈ queue
  outside : ∀ v, v ∉ vs → ranks v = -1

theorem assignRanks_spec (ranks : α → Int) (queue : List (α × α)) (hinv : RankInv vs childs ranks queue) :
    match assignRanks vs childs ranks queue with
    | .ok ranks' => RankInv vs childs ranks' [] ∧ ∀ v, ranks v ≤ ranks' v
    | .error (.cycle l) => (∃ p, l = [p]) ∧ ∃ a ∈ vs, ∃ v, ∃ n, vs.length ≤ n ∧ Chain childs a v n
    | .error .keyError => False := by
  fun_induction assignRanks vs childs ranks queue with
  | case1 ranks => exact ⟨hinv, fun _ => Int.le_refl _⟩
  | case2 ranks n p queue hr =>
    obtain ⟨h1, _, h3⟩ := hinv.queued (n, p) (by simp)
    obtain ⟨a, ha, hc⟩ := hinv.chain p h1 h3
    exact ⟨⟨p, rfl⟩, a, ha, p, _, by simp only at h3; omega, hc⟩
  | case3 ranks n p queue hr hv hn ih =>
    refine ih ⟨hinv.low, hinv.chain, fun x hx => hinv.queued x (by simp [hx]), fun v hvv h0 c hc => ?_, hinv.outside⟩
    rcases hinv.edges v hvv h0 c hc with h | h
    · exact .inl h
    · rcases List.mem_cons.mp h with h | h
      · cases h; exact .inl (by omega)
      · exact .inr h
  | case4 ranks n p queue hr hv hn ih =>
    obtain ⟨h1, h2, h3⟩ := hinv.queued (n, p) (by simp)
    simp only at h1 h2 h3
    have hup : ∀ v, ranks v ≤ assign ranks n (ranks p + 1) v := by
      intro v
      unfold assign
      split
      · next h => rw [h]; omega
      · exact Int.le_refl _
    have := ih ⟨fun v => ?_, fun v hvv h0 => ?_, fun x hx => ?_, fun v hvv h0 c hc => ?_, fun v hvv => ?_⟩
    · split at this
      · next r heq => exact ⟨this.1, fun v => Int.le_trans (hup v) (this.2 v)⟩
      · next l heq => exact this
      · exact this.elim
    · exact Int.le_trans (hinv.low v) (hup v)
    · by_cases hvn : v = n
      · obtain ⟨a, ha, hc⟩ := hinv.chain p h1 h3
        refine ⟨a, ha, ?_⟩
        have : (assign ranks n (ranks p + 1) v).toNat = (ranks p).toNat + 1 := by
          unfold assign; rw [if_pos hvn]; omega
        rw [this, hvn]
        exact .step hc h2
      · have : assign ranks n (ranks p + 1) v = ranks v := by unfold assign; rw [if_neg hvn]
        rw [this] at h0 ⊢
        exact hinv.chain v hvv h0
    · rcases List.mem_append.mp hx with hx | hx
      · obtain ⟨h4, h5, h6⟩ := hinv.queued x (by simp [hx])
        exact ⟨h4, h5, Int.le_trans h6 (hup _)⟩
      · obtain ⟨c, hc, rfl⟩ := List.mem_map.mp hx
        refine ⟨hv, hc, ?_⟩
        simp only [assign, if_true]
        omega
    · by_cases hvn : v = n
      · exact .inr (List.mem_append.mpr (.inr (List.mem_map.mpr ⟨c, hvn ▸ hc, by rw [hvn]⟩)))
      · have : assign ranks n (ranks p + 1) v = ranks v := by unfold assign; rw [if_neg hvn]
        rw [this] at h0 ⊢
        rcases hinv.edges v hvv h0 c hc with h | h
        · exact .inl (Int.lt_of_lt_of_le h (hup c))
        · rcases List.mem_cons.mp h with h | h
          · cases h
            refine .inl ?_
            simp only [assign, if_true]
            omega
          · exact .inr (List.mem_append.mpr (.inl h))
    · unfold assign
      rw [if_neg (by rintro rfl; exact hvv hv), hinv.outside v hvv]
  | case5 ranks n p queue hr hv =>
    obtain ⟨h1, h2, _⟩ := hinv.queued (n, p) (by simp)
    exact hv (hg.childs _ h1 _ h2)

omit hg in
theorem RankInv.up {ranks : α → Int} (hinv : RankInv vs childs ranks []) (hg : Graph vs preds childs) {a b : α} {n : Nat} (h : Chain childs a b n)
    (ha : a ∈ vs) (h0 : 0 ≤ ranks a) : ranks a + n ≤ ranks b := by
  induction h with
  | here => simp
  | @step b c n hc he ih =>
    rcases hinv.edges b (Chain.mem hg hc ha) (by omega) c he with h | h
    · omega
    · cases h

theorem long_cyclic {a v : α} {n : Nat} (ha : a ∈ vs) (hn : vs.length ≤ n) (hc : Chain childs a v n) : ¬ Acyclic vs childs := by
  intro hac
  have := Chain.short hg hac hc ha
  omega

omit hg in
theorem checkEdges_ok {ranks : α → Int} {v : α} : ∀ {cs : List α}, (∀ c ∈ cs, c ∈ vs ∧ ranks v < ranks c) → checkEdges vs ranks v cs = .ok ()
  | [], _ => rfl
  | c :: cs, h => by
    obtain ⟨h1, h2⟩ := h c (by simp)
    rw [checkEdges, if_pos h1, if_neg (by omega)]
    exact checkEdges_ok (fun c hc => h c (by simp [hc]))

omit hg in
theorem checkRanks_ok {ranks : α → Int} : ∀ {l : List α}, (∀ v ∈ l, ∀ c ∈ childs v, c ∈ vs ∧ ranks v < ranks c) → checkRanks vs childs ranks l = .ok ()
  | [], _ => rfl
  | v :: l, h => by
    rw [checkRanks, checkEdges_ok (h v (by simp))]
    exact checkRanks_ok (fun v hv => h v (by simp [hv]))

/-- The outer loop comes to an end. -/
theorem rankLoop_spec : ∀ (fuel : Nat) (ranks : α → Int), RankInv vs childs ranks [] → vs.countP (fun v => ranks v == -1) < fuel →
    ∃ res, rankLoop vs preds childs fuel ranks = some res ∧
      match res with
      | .ok ranks' => RankInv vs childs ranks' [] ∧ ∀ v ∈ vs, 0 ≤ ranks' v
      | .error (.cycle _) => ¬ Acyclic vs childs
      | .error .keyError => False
  | fuel + 1, ranks, hinv, hf => by
    unfold rankLoop
    cases hfind : vs.find? (fun v => ranks v == -1) with
    | none =>
      refine ⟨_, rfl, hinv, fun v hv => ?_⟩
      have h1 := List.find?_eq_none.mp hfind v hv
      have h2 := hinv.low v
      simp only [beq_iff_eq] at h1
      omega
    | some start =>
      have hs : start ∈ vs := List.mem_of_find?_eq_some hfind
      have hs1 : ranks start = -1 := by simpa using List.find?_some hfind
      have hroot := findRoot_spec hg (assign (fun _ => false) start true) start start hs (fun x _ hx => by
        unfold assign at hx
        split at hx
        · next e => exact ⟨0, e ▸ .here _⟩
        · cases hx) ⟨0, .here _⟩
      cases hfr : findRoot vs preds (assign (fun _ => false) start true) start with
      | error e =>
        simp only [hfr] at hroot ⊢
        refine ⟨_, rfl, ?_⟩
        cases e with
        | cycle l =>
          obtain ⟨v, _, hv, k, hk⟩ := hroot
          intro hac
          have := hac v hv _ hk
          omega
        | keyError => exact hroot
      | ok root =>
        simp only [hfr] at hroot ⊢
        obtain ⟨hrv, hrp, k, hk⟩ := hroot
        have hinto : ∀ v ∈ vs, root ∉ childs v := fun v hv h => by
          have := (hg.agree v hv root hrv).mp h
          rw [hrp] at this; cases this
        have hr0 : ranks root ≤ 0 := by
          by_cases h0 : 0 ≤ ranks root
          · obtain ⟨a, ha, hc⟩ := hinv.chain root hrv h0
            cases hm : (ranks root).toNat with
            | zero => omega
            | succ m =>
              rw [hm] at hc
              cases hc with
              | step hc he => exact absurd he (hinto _ (Chain.mem hg hc ha))
          · omega
        have hup : ∀ v, ranks v ≤ assign ranks root 0 v := by
          intro v
          unfold assign
          split
          · next h => rw [h]; omega
          · exact Int.le_refl _
        have hinv' : RankInv vs childs (assign ranks root 0) ((childs root).map fun c => (c, root)) := by
          refine ⟨fun v => Int.le_trans (hinv.low v) (hup v), fun v hv h0 => ?_, fun x hx => ?_, fun v hv h0 c hc => ?_, fun v hv => ?_⟩
          · by_cases h : v = root
            · refine ⟨v, hv, ?_⟩
              simp only [assign, if_pos h]
              exact .here _
            · simp only [assign, if_neg h] at h0 ⊢
              exact hinv.chain v hv h0
          · obtain ⟨c, hc, rfl⟩ := List.mem_map.mp hx
            exact ⟨hrv, hc, by simp [assign]⟩
          · by_cases h : v = root
            · exact .inr (List.mem_map.mpr ⟨c, h ▸ hc, by rw [h]⟩)
            · simp only [assign, if_neg h] at h0 ⊢
              rcases hinv.edges v hv h0 c hc with h' | h'
              · refine .inl ?_
                split
                · next e => exact absurd (e ▸ hc) (hinto v hv)
                · exact h'
              · cases h'
          · unfold assign
            rw [if_neg (by rintro rfl; exact hv hrv), hinv.outside v hv]
        have hspec := assignRanks_spec hg _ _ hinv'
        cases har : assignRanks vs childs (assign ranks root 0) ((childs root).map fun c => (c, root)) with
        | error e =>
          simp only [har] at hspec ⊢
          refine ⟨_, rfl, ?_⟩
          cases e with
          | cycle l =>
            obtain ⟨_, a, ha, v, n, hn, hc⟩ := hspec
            exact long_cyclic hg ha hn hc
          | keyError => exact hspec
        | ok ranks' =>
          simp only [har] at hspec ⊢
          obtain ⟨hinv'', hle⟩ := hspec
          refine rankLoop_spec fuel ranks' hinv'' ?_
          have hall : ∀ v, ranks v ≤ ranks' v := fun v => Int.le_trans (hup v) (hle v)
          have h0 : 0 ≤ ranks' root := by
            have := hle root
            simp only [assign, if_true] at this
            exact this
          have hst : 0 ≤ ranks' start := by
            have := hinv''.up hg hk hrv h0
            omega
          have : vs.countP (fun v => ranks' v == -1) < vs.countP (fun v => ranks v == -1) := by
            refine countP_lt (fun x _ hx => ?_) ⟨start, hs, by simp [hs1], ?_⟩
            · have h1 := hall x
              have h2 := hinv.low x
              simp only [beq_iff_eq] at hx ⊢
              omega
            · simp only [beq_eq_false_iff_ne, ne_eq]
              omega
          omega

theorem rankSort_spec (fuel : Nat) (hf : vs.length < fuel) :
    ∃ res, rankSort fuel vs preds childs = some res ∧
      match res with
      | .ok ranks => (∀ v ∈ vs, 0 ≤ ranks v ∧ LongestChain vs childs v (ranks v).toNat) ∧ (∀ v, v ∉ vs → ranks v = -1) ∧ Acyclic vs childs
      | .error (.cycle _) => ¬ Acyclic vs childs
      | .error .keyError => False := by
  have hinv : RankInv vs childs (fun _ => -1) [] :=
    ⟨fun _ => Int.le_refl _, fun v _ h => absurd h (by decide), fun x hx => (by cases hx), fun v _ h => absurd h (by decide), fun _ _ => rfl⟩
  obtain ⟨res, h1, h2⟩ := rankLoop_spec hg fuel _ hinv (Nat.lt_of_le_of_lt List.countP_le_length hf)
  unfold rankSort
  rw [h1]
  cases res with
  | error e => cases e <;> exact ⟨_, rfl, h2⟩
  | ok ranks =>
    obtain ⟨hi, h0⟩ := h2
    have hcheck : checkRanks vs childs ranks vs = .ok () := by
      refine checkRanks_ok fun v hv c hc => ⟨hg.childs v hv c hc, ?_⟩
      rcases hi.edges v hv (h0 v hv) c hc with h | h
      · exact h
      · cases h
    refine ⟨.ok ranks, ?_, ?_, hi.outside, ?_⟩
    · simp only [Option.map, bind, Except.bind, hcheck]
    · intro v hv
      refine ⟨h0 v hv, hi.chain v hv (h0 v hv), fun a ha m hc => ?_⟩
      have := hi.up hg hc ha (h0 a ha)
      have := h0 a ha
      omega
    · intro v hv n hc
      have := hi.up hg hc hv (h0 v hv)
      omega

end

theorem LongestChain.unique {vs : List α} {childs : α → List α} {v : α} {n m : Nat} (h : LongestChain vs childs v n) (h' : LongestChain vs childs v m) : n = m := by
  obtain ⟨⟨a, ha, hc⟩, hmax⟩ := h
  obtain ⟨⟨b, hb, hd⟩, hmax'⟩ := h'
  exact Nat.le_antisymm (hmax' a ha n hc) (hmax b hb m hd)

end Verif.Inventory
