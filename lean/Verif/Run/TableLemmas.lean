/-
Lemmas about tables.
-/
import Verif.Run.TableSpec

namespace Verif.Run

theorem visible_append (a b : Cell) : visible (a ++ b) = visible a ++ visible b := by simp [visible]

theorem visible_cons (p : Str) (c : Cell) : visible (p :: c) = visible [p] ++ visible c := visible_append [p] c

theorem ansilen_eq (c : Cell) : ansilen c = (visible c).length := by
  induction c with
  | nil => rfl
  | cons p c ih =>
    rw [visible_cons, List.length_append, ← ih]
    show pieceLen p + ansilen c = _
    have : pieceLen p = (visible [p]).length := by
      unfold pieceLen visible
      cases h : isAnsi p <;> simp [h]
    rw [this]

theorem isAnsi_replicate {n a : Nat} (h : a ≠ 27) : isAnsi (List.replicate n a) = false := by
  unfold isAnsi Py.startsWith
  cases n with
  | zero => rfl
  | succ n =>
    rw [List.replicate_succ]
    simp [List.isPrefixOf, Ne.symm h]

theorem visible_replicate {n a : Nat} (h : a ≠ 27) : visible [List.replicate n a] = List.replicate n a := by
  simp [visible, isAnsi_replicate h]

theorem visible_ansipad (c : Cell) (w : Int) : visible (ansipad c w) = padded w.toNat c := by
  unfold ansipad padded
  rw [visible_append, visible_replicate (by decide), ansilen_eq]
  congr 2
  omega

theorem visible_joinCells (delim : Cell) : ∀ cs : List Cell, visible (joinCells delim cs) = Py.join (visible delim) (cs.map visible)
  | [] => rfl
  | [c] => rfl
  | c :: d :: cs => by
    show visible (c ++ delim ++ joinCells delim (d :: cs)) = _
    rw [visible_append, visible_append, visible_joinCells delim (d :: cs)]
    rfl

/-- A control sequence, or nothing. -/
def Hidden (s : Str) : Prop := visible [s] = []

theorem Hidden.ansi {s : Str} (h : isAnsi s = true) : Hidden s := by simp [Hidden, visible, h]

theorem Hidden.nil : Hidden [] := rfl

theorem visible_tableLine {box reset : Str} (hb : Hidden box) (hr : Hidden reset) (widths : List Int) (row : List Cell) :
    visible (tableLine box reset widths row) = lineText (widths.map Int.toNat) row := by
  unfold tableLine lineText
  rw [visible_joinCells]
  have : visible [box, p!" │ ", reset] = p!" │ " := by
    rw [visible_cons, visible_cons p!" │ ", hb, hr]
    rfl
  rw [this, List.map_map, List.zip_map_right, List.map_map]
  congr 1
  apply List.map_congr_left
  intro cw _
  exact visible_ansipad cw.1 cw.2

theorem visible_tableRule {box reset : Str} (hb : Hidden box) (hr : Hidden reset) (widths : List Int) :
    visible (tableRule box reset widths) = ruleText (widths.map Int.toNat) := by
  unfold tableRule ruleText
  rw [visible_append, visible_append, hb, hr, visible_joinCells, List.append_nil, List.nil_append, List.map_map, List.map_map]
  congr 1
  apply List.map_congr_left
  intro w _
  exact visible_replicate (by decide)

/-! ### Widths -/

theorem widen_spec : ∀ (ws : List Nat) (row : List Cell), row.length ≤ ws.length →
    ∃ ws', widen ws row = some ws' ∧ ws'.length = ws.length ∧ ∀ (k : Nat) w, ws[k]? = some w → ws'[k]? = some (max w ((row[k]?.map fun c => (visible c).length).getD 0))
  | ws, [], _ => ⟨ws, by cases ws <;> rfl, rfl, fun k w h => by simpa using h⟩
  | [], c :: cs, h => by simp at h
  | w :: ws, c :: cs, h => by
    obtain ⟨ws', h1, h2, h3⟩ := widen_spec ws cs (by simpa using h)
    refine ⟨max w (ansilen c) :: ws', by simp [widen, h1], by simp [h2], fun k v hk => ?_⟩
    cases k with
    | zero =>
      cases hk
      simp [ansilen_eq]
    | succ k => exact h3 k v hk

theorem widen_none : ∀ (ws : List Nat) (row : List Cell), ws.length < row.length → widen ws row = none
  | ws, [], h => by simp at h
  | [], c :: cs, _ => rfl
  | w :: ws, c :: cs, h => by simp [widen, widen_none ws cs (by simpa using h)]

theorem widenAll_spec : ∀ (rows : List (List Cell)) (ws : List Nat), (∀ row ∈ rows, row.length ≤ ws.length) →
    ∃ ws', widenAll ws rows = some ws' ∧ ws'.length = ws.length
      ∧ ∀ (k : Nat) w, ws[k]? = some w → ws'[k]? = some ((rows.map fun row => (row[k]?.map fun c => (visible c).length).getD 0).foldl max w)
  | [], ws, _ => ⟨ws, rfl, rfl, fun k w h => h⟩
  | row :: rows, ws, h => by
    obtain ⟨ws', h1, h2, h3⟩ := widen_spec ws row (h row (by simp))
    obtain ⟨ws'', h4, h5, h6⟩ := widenAll_spec rows ws' (fun r hr => by rw [h2]; exact h r (by simp [hr]))
    exact ⟨ws'', by simp [widenAll, h1, h4], h5.trans h2, fun k w hk => h6 k _ (h3 k w hk)⟩

theorem widenAll_none : ∀ (rows : List (List Cell)) (ws : List Nat), (∃ row ∈ rows, ws.length < row.length) → widenAll ws rows = none
  | [], ws, h => by simp at h
  | row :: rows, ws, h => by
    by_cases hr : row.length ≤ ws.length
    · obtain ⟨ws', h1, h2, _⟩ := widen_spec ws row hr
      simp only [widenAll, h1]
      obtain ⟨r, hm, hl⟩ := h
      rcases List.mem_cons.mp hm with rfl | hm
      · omega
      · exact widenAll_none rows ws' ⟨r, hm, by omega⟩
    · simp [widenAll, widen_none ws row (by omega)]

theorem neededWidths_spec {header : List Cell} {rows : List (List Cell)} (h : ∀ row ∈ rows, row.length ≤ header.length) :
    ∃ ws, neededWidths header rows = some ws ∧ ws.length = header.length ∧ ∀ k : Nat, k < header.length → ws[k]? = some (longest k (header :: rows)) := by
  obtain ⟨ws, h1, h2, h3⟩ := widenAll_spec (header :: rows) (List.replicate header.length 0) (fun row hr => by
    rw [List.length_replicate]
    rcases List.mem_cons.mp hr with rfl | hr
    · exact Nat.le_refl _
    · exact h row hr)
  refine ⟨ws, h1, by simpa using h2, fun k hk => h3 k 0 (by simp [hk])⟩

theorem le_foldl_max : ∀ (l : List Nat) (a : Nat), a ≤ l.foldl max a ∧ ∀ x ∈ l, x ≤ l.foldl max a
  | [], a => ⟨Nat.le_refl _, nofun⟩
  | y :: l, a => by
    obtain ⟨h1, h2⟩ := le_foldl_max l (max a y)
    refine ⟨Nat.le_trans (Nat.le_max_left _ _) h1, fun x hx => ?_⟩
    rcases List.mem_cons.mp hx with rfl | hx
    · exact Nat.le_trans (Nat.le_max_right _ _) h1
    · exact h2 x hx

theorem le_longest {k : Nat} {rows : List (List Cell)} {row : List Cell} {c : Cell} (hr : row ∈ rows) (hc : row[k]? = some c) :
    (visible c).length ≤ longest k rows :=
  (le_foldl_max _ 0).2 _ (List.mem_map.mpr ⟨row, hr, by rw [hc]; rfl⟩)

theorem colWidths_spec (cols : Nat) (available even : Int) : ∀ (ws : List Nat) (i : Nat) (ms : List Int), ws.length ≤ ms.length →
    (colWidths cols available even i ws ms).length = ws.length ∧ ∀ (k : Nat) w m, ws[k]? = some w → ms[k]? = some m →
      (colWidths cols available even i ws ms)[k]? = some (max m (min (min 40 w) (available - ((cols : Int) - (i + k : Nat) - 1) * even)))
  | [], i, ms, _ => ⟨by simp [colWidths], fun k w m h => by simp at h⟩
  | w :: ws, i, [], h => by simp at h
  | w :: ws, i, m :: ms, h => by
    obtain ⟨h1, h2⟩ := colWidths_spec cols available even ws (i + 1) ms (by simpa using h)
    refine ⟨by simp [colWidths, h1], fun k v n hk hn => ?_⟩
    cases k with
    | zero =>
      cases hk
      cases hn
      rfl
    | succ k =>
      have := h2 k v n hk hn
      rw [show i + 1 + k = i + (k + 1) by omega] at this
      exact this

theorem giveRest_spec {rest : Int} (hr : 0 ≤ rest) : ∀ l : List (Nat × Int),
    (giveRest rest l).length = l.length ∧ ∀ (k : Nat) (p : Nat × Int), l[k]? = some p → ∃ v, (giveRest rest l)[k]? = some v ∧ p.2 ≤ v
  | [] => ⟨rfl, fun k p h => by simp at h⟩
  | (w, cw) :: l => by
    obtain ⟨h1, h2⟩ := giveRest_spec hr l
    unfold giveRest
    split
    · refine ⟨by simp, fun k p hk => ?_⟩
      cases k with
      | zero =>
        cases hk
        exact ⟨_, rfl, by show cw ≤ cw + rest; omega⟩
      | succ k =>
        have hk : l[k]? = some p := hk
        exact ⟨p.2, by simp [hk], Int.le_refl _⟩
    · refine ⟨by simp [h1], fun k p hk => ?_⟩
      cases k with
      | zero =>
        cases hk
        exact ⟨_, rfl, Int.le_refl _⟩
      | succ k => exact h2 k p hk

theorem tableWidths_spec {terminal : Nat} {needed : List Nat} {mins : List Int} (hm : needed.length ≤ mins.length) :
    (tableWidths terminal needed mins).length = needed.length ∧ ∀ (k : Nat) w m, needed[k]? = some w → mins[k]? = some m →
      ∃ v, (tableWidths terminal needed mins)[k]? = some v ∧ m ≤ v
        ∧ (w ≤ 40 → w + 3 * (needed.length - 1) ≤ (k + 1) * (lineWidth terminal / needed.length) → (w : Int) ≤ v) := by
  obtain ⟨h1, h2⟩ := colWidths_spec needed.length (lineWidth terminal - 3 * ((needed.length : Int) - 1)) (lineWidth terminal / needed.length : Nat) needed 0 mins hm
  have key : ∀ (k : Nat) w m, needed[k]? = some w → mins[k]? = some m →
      ∃ v, (colWidths needed.length (lineWidth terminal - 3 * ((needed.length : Int) - 1)) (lineWidth terminal / needed.length : Nat) 0 needed mins)[k]? = some v ∧ m ≤ v
        ∧ (w ≤ 40 → w + 3 * (needed.length - 1) ≤ (k + 1) * (lineWidth terminal / needed.length) → (w : Int) ≤ v) := by
    intro k w m hk hmk
    refine ⟨_, h2 k w m hk hmk, by omega, fun h40 hw => ?_⟩
    have hkl : k < needed.length := by
      rw [List.getElem?_eq_some_iff] at hk
      exact hk.1
    generalize hc : needed.length = c at *
    generalize he : lineWidth terminal / c = even at *
    have hd : c * even ≤ lineWidth terminal := by
      rw [← he]
      exact Nat.mul_div_le _ _
    have hsplit : c * even = (k + 1) * even + (c - k - 1) * even := by
      rw [← Nat.add_mul]
      congr 1
      omega
    have hcast : ((c : Int) - (0 + k : Nat) - 1) * (even : Nat) = ((c - k - 1) * even : Nat) := by
      rw [Int.natCast_mul]
      congr 1
      omega
    rw [hcast]
    omega
  unfold tableWidths
  simp only
  split
  · next hrest =>
    obtain ⟨h3, h4⟩ := giveRest_spec (Int.le_of_lt hrest) (needed.zip (colWidths needed.length (lineWidth terminal - 3 * ((needed.length : Int) - 1)) (lineWidth terminal / needed.length : Nat) 0 needed mins)).reverse
    have hlen : (needed.zip (colWidths needed.length (lineWidth terminal - 3 * ((needed.length : Int) - 1)) (lineWidth terminal / needed.length : Nat) 0 needed mins)).length = needed.length := by
      rw [List.length_zip, h1, Nat.min_self]
    refine ⟨by rw [List.length_reverse, h3, List.length_reverse, hlen], fun k w m hk hmk => ?_⟩
    obtain ⟨v, hv, hm1, hm2⟩ := key k w m hk hmk
    have hkl : k < needed.length := by
      rw [List.getElem?_eq_some_iff] at hk
      exact hk.1
    obtain ⟨u, hu, hvu⟩ := h4 (needed.length - 1 - k) (w, v) (by
      rw [List.getElem?_reverse (by omega), hlen]
      rw [show needed.length - 1 - (needed.length - 1 - k) = k by omega, List.getElem?_zip_eq_some]
      exact ⟨hk, hv⟩)
    refine ⟨u, ?_, Int.le_trans hm1 hvu, fun a b => Int.le_trans (hm2 a b) hvu⟩
    rw [List.getElem?_reverse (by rw [h3, List.length_reverse, hlen]; exact hkl), h3, List.length_reverse, hlen]
    exact hu
  · exact ⟨h1, key⟩

/-! ### Lines -/

theorem padded_length {w : Nat} {c : Cell} (h : (visible c).length ≤ w) : (padded w c).length = w := by
  unfold padded
  rw [List.length_append, List.length_replicate]
  omega

theorem lineText_cons {w : Nat} {ws : List Nat} {c d : Cell} {row : List Cell} (h : (d :: row).length ≤ ws.length) :
    lineText (w :: ws) (c :: d :: row) = padded w c ++ p!" │ " ++ lineText ws (d :: row) := by
  cases ws with
  | nil => simp at h
  | cons v ws => rfl

theorem lineText_aligned : ∀ (row : List Cell) (ws : List Nat), row.length ≤ ws.length →
    (∀ (k : Nat) c w, row[k]? = some c → ws[k]? = some w → (visible c).length ≤ w) → Aligned ws row (lineText ws row)
  | [], ws, _, _ => fun k c w h => by simp at h
  | c :: row, [], h, _ => by simp at h
  | [c], w :: ws, _, hf => by
    intro k c' w' hc hw
    cases k with
    | zero =>
      cases hc
      cases hw
      refine ⟨?_, fun h => by simp at h⟩
      show List.take w (padded w c) = _
      exact List.take_of_length_le (Nat.le_of_eq (padded_length (hf 0 c w rfl rfl)))
    | succ k => simp at hc
  | c :: d :: row, w :: ws, hl, hf => by
    intro k c' w' hc hw
    have hl' : (d :: row).length ≤ ws.length := by simpa using hl
    have h0 := padded_length (hf 0 c w rfl rfl)
    rw [lineText_cons hl']
    cases k with
    | zero =>
      cases hc
      cases hw
      refine ⟨?_, fun _ => ?_⟩
      · show List.take w (padded w c ++ p!" │ " ++ _) = _
        rw [List.append_assoc, List.take_append_of_le_length (by omega), List.take_of_length_le (by omega)]
      · show List.take 3 (List.drop (0 + w) (padded w c ++ p!" │ " ++ _)) = _
        rw [Nat.zero_add, List.append_assoc, List.drop_append_of_le_length (by omega), List.drop_of_length_le (by omega)]
        rfl
    | succ k =>
      have ih := lineText_aligned (d :: row) ws hl' (fun k c w h1 h2 => hf (k + 1) c w h1 h2) k c' w' hc hw
      have hs : ∀ n, List.drop (w + 3 + n) (padded w c ++ p!" │ " ++ lineText ws (d :: row)) = List.drop n (lineText ws (d :: row)) := by
        intro n
        rw [← List.drop_drop]
        congr 1
        exact List.drop_left' (by rw [List.length_append, h0]; rfl)
      have hst : colStart (w :: ws) (k + 1) = w + 3 + colStart ws k := by simp [colStart]
      refine ⟨?_, fun h => ?_⟩
      · unfold part
        rw [hst, hs]
        exact ih.1
      · unfold part
        rw [hst, Nat.add_assoc (w + 3), hs]
        exact ih.2 (by simpa using h)

theorem printTable_ok {terminal : Nat} {box reset : Str} {header : List Cell} {rows : List (List Cell)} {mins : Option (List Int)} {lines : List Cell}
    (h : printTable terminal box reset header rows mins = .ok lines) :
    header ≠ [] ∧ (∀ row ∈ rows, row.length ≤ header.length) ∧ header.length ≤ (mins.getD (List.replicate header.length 0)).length
      ∧ ∃ needed, neededWidths header rows = some needed
        ∧ lines = tableLine box reset (tableWidths terminal needed (mins.getD (List.replicate header.length 0))) header
          :: tableRule box reset (tableWidths terminal needed (mins.getD (List.replicate header.length 0)))
          :: rows.map (tableLine box reset (tableWidths terminal needed (mins.getD (List.replicate header.length 0)))) := by
  unfold printTable at h
  split at h
  · cases h
  · next needed hn =>
    split at h
    · cases h
    · next h0 =>
      simp only at h
      split at h
      · cases h
      · next hm =>
        cases h
        refine ⟨fun e => h0 (by rw [e]; rfl), fun row hr => ?_, by omega, needed, hn, rfl⟩
        by_cases hlt : row.length ≤ header.length
        · exact hlt
        · exfalso
          have := widenAll_none (header :: rows) (List.replicate header.length 0) ⟨row, by simp [hr], by simp; omega⟩
          rw [show neededWidths header rows = none from this] at hn
          cases hn

end Verif.Run
