/-
C86: tables and headings.
-/
import Verif.Run.TableLemmas
import Verif.Inventory.InspectTable
import Verif.Inventory.InspectProps

namespace Verif.Run

/-- C86, when a table can be printed: there is at least one column, no row has more cells than the heading, and there are enough
minimal widths. Otherwise there is an exception, and nothing is printed. -/
theorem C86_succeeds (terminal : Nat) (box reset : Str) (header : List Cell) (rows : List (List Cell)) (mins : Option (List Int)) :
    (∃ lines, printTable terminal box reset header rows mins = .ok lines)
      ↔ header ≠ [] ∧ (∀ row ∈ rows, row.length ≤ header.length) ∧ ∀ ms, mins = some ms → header.length ≤ ms.length := by
  constructor
  · rintro ⟨lines, h⟩
    obtain ⟨h1, h2, h3, _⟩ := printTable_ok h
    refine ⟨h1, h2, fun ms hms => ?_⟩
    subst hms
    exact h3
  · rintro ⟨h1, h2, h3⟩
    obtain ⟨ws, hn, _, _⟩ := neededWidths_spec h2
    have hm : ¬ (mins.getD (List.replicate header.length 0)).length < header.length := by
      cases mins with
      | none => simp
      | some ms => exact Nat.not_lt.mpr (h3 ms rfl)
    have h0 : ¬ header.length = 0 := fun e => h1 (List.length_eq_zero_iff.mp e)
    unfold printTable
    simp only [hn, if_neg h0, if_neg hm]
    exact ⟨_, rfl⟩

/-- C86, what is printed: the heading, a rule, and one line for each row, in this order. Each line consists of the texts of all of
its cells in full, filled up with spaces to the widths of their columns and separated by vertical lines. A column is at least as
wide as asked for, and it is wide enough for all of its texts if these are at most 40 characters long and the columns up to this
one have room for it in their even share of the terminal. -/
theorem C86_lines {terminal : Nat} {box reset : Str} (hb : visible [box] = []) (hr : visible [reset] = []) {header : List Cell} {rows : List (List Cell)}
    {mins : Option (List Int)} {lines : List Cell} (h : printTable terminal box reset header rows mins = .ok lines) :
    ∃ widths : List Nat, widths.length = header.length
      ∧ lines.map visible = lineText widths header :: ruleText widths :: rows.map (lineText widths)
      ∧ ∀ (k w : Nat), widths[k]? = some w →
        (∀ ms m, mins = some ms → ms[k]? = some m → m ≤ w)
        ∧ (longest k (header :: rows) ≤ 40 → longest k (header :: rows) + 3 * (header.length - 1) ≤ (k + 1) * (max terminal 80 / header.length) → longest k (header :: rows) ≤ w) := by
  obtain ⟨_, h2, h3, needed, hn, hl⟩ := printTable_ok h
  obtain ⟨ws, hn', hlen, hneed⟩ := neededWidths_spec h2
  rw [hn] at hn'
  cases hn'
  obtain ⟨h4, h5⟩ := tableWidths_spec (terminal := terminal) (needed := needed) (mins := mins.getD (List.replicate header.length 0)) (by rw [hlen]; exact h3)
  refine ⟨(tableWidths terminal needed (mins.getD (List.replicate header.length 0))).map Int.toNat, by rw [List.length_map, h4, hlen], ?_, fun k w hk => ?_⟩
  · rw [hl]
    simp only [List.map_cons, List.map_map]
    rw [visible_tableLine hb hr, visible_tableRule hb hr]
    congr 2
    apply List.map_congr_left
    intro row _
    exact visible_tableLine hb hr _ row
  · rw [List.getElem?_map, Option.map_eq_some_iff] at hk
    obtain ⟨v, hv, rfl⟩ := hk
    have hkl : k < header.length := by
      rw [List.getElem?_eq_some_iff] at hv
      have := hv.1
      omega
    obtain ⟨m, hm⟩ : ∃ m, (mins.getD (List.replicate header.length 0))[k]? = some m := ⟨_, List.getElem?_eq_getElem (by omega)⟩
    obtain ⟨v', hv', h6, h7⟩ := h5 k _ m (hneed k hkl) hm
    rw [hv] at hv'
    cases hv'
    refine ⟨fun ms m' hms hm' => ?_, fun ha hb' => ?_⟩
    · subst hms
      have : m' = m := by
        have := hm'.symm.trans hm
        exact Option.some.inj this
      omega
    · rw [hlen] at h7
      have := h7 ha hb'
      omega

/-- C86, the columns: if the columns are wide enough, the cells of every line begin at the same positions, and the vertical lines
are below each other. -/
theorem C86_columns {widths : List Nat} {header : List Cell} {rows : List (List Cell)} {row : List Cell} (hrow : row ∈ header :: rows) (hlen : row.length ≤ widths.length)
    (hwide : ∀ (k w : Nat), widths[k]? = some w → longest k (header :: rows) ≤ w) : Aligned widths row (lineText widths row) :=
  lineText_aligned row widths hlen fun k _ w hc hw => Nat.le_trans (le_longest hrow hc) (hwide k w hw)

/-- C86, headings: both texts are shown in full, the second one at the end of a line that is as wide as the terminal (at least 80
characters), unless they are too long. -/
theorem C86_heading (terminal : Nat) (left right : Cell) :
    (∃ n, visible (fullWidth terminal left right) = visible left ++ List.replicate n 9472 ++ visible right)
      ∧ (visible (fullWidth terminal left right)).length = max (max terminal 80) ((visible left).length + (visible right).length) := by
  have h : visible (fullWidth terminal left right) = visible left ++ List.replicate ((lineWidth terminal : Int) - ansilen left - ansilen right).toNat 9472 ++ visible right := by
    unfold fullWidth
    rw [visible_append, visible_append, visible_replicate (by decide)]
  refine ⟨⟨_, h⟩, ?_⟩
  rw [h, List.length_append, List.length_append, List.length_replicate, ansilen_eq, ansilen_eq]
  unfold lineWidth
  omega

namespace Example

def text (s : Str) : Cell := [[27, 91, 51, 52, 109], s, [27, 91, 109]]

/-- A table with two rows. -/
example : ((printTable 80 [27, 91, 57, 48, 109] [27, 91, 109] [text p!"a", text p!"bcd"] [[text p!"x", text p!"y"], [text p!"long"]] (some [2, 0])).toOption.map fun l => l.map visible)
    = some [p!"a    │ bcd", p!"─────┼────", p!"x    │ y  ", p!"long"] := by decide +kernel

/-- The hypotheses of `C86_lines` about widths are met by both columns of it. -/
example : longest 0 [[text p!"a", text p!"bcd"], [text p!"x", text p!"y"], [text p!"long"]] = 4 ∧ 4 ≤ 40 ∧ 4 + 3 * (2 - 1) ≤ (0 + 1) * (max 80 80 / 2) := by decide +kernel

/-- A text of length `n`. -/
def ofLength (n : Nat) : Cell := [List.replicate n 120]

/-- A row of a table whose first column is not wide enough. -/
def uneven : List Cell := [ofLength 15, ofLength 35, ofLength 1, ofLength 1]

end Example

open Example in
/-- Tables are not always aligned if the terminal is wide enough: this table needs 15, 35, 1 and 1 characters and has 71, but its first
column gets 11 and its second one 58. -/
theorem C86_fit_refuted :
    ∃ row other : List Cell, ∃ lines, printTable 80 [] [] row [other] none = .ok lines
      ∧ longest 0 [row, other] + longest 1 [row, other] + longest 2 [row, other] + longest 3 [row, other] + 3 * 3 ≤ 80
      ∧ lines.map visible = [lineText [11, 58, 1, 1] row, ruleText [11, 58, 1, 1], lineText [11, 58, 1, 1] other]
      ∧ part 11 3 (lineText [11, 58, 1, 1] other) = p!" │ " ∧ part 11 3 (lineText [11, 58, 1, 1] row) ≠ p!" │ " := by
  obtain ⟨lines, hl⟩ := (C86_succeeds 80 [] [] uneven [[ofLength 1, ofLength 1]] none).mpr ⟨by decide, by decide, nofun⟩
  refine ⟨uneven, [ofLength 1, ofLength 1], lines, hl, by decide +kernel, ?_, by decide +kernel, by decide +kernel⟩
  have : (printTable 80 [] [] uneven [[ofLength 1, ofLength 1]] none).toOption.map (fun l => l.map visible)
    = some [lineText [11, 58, 1, 1] uneven, ruleText [11, 58, 1, 1], lineText [11, 58, 1, 1] [ofLength 1, ofLength 1]] := by decide +kernel
  rw [hl] at this
  exact Option.some.inj this

end Verif.Run

namespace Verif.Inventory

open Run

/-- The colours are control sequences, or empty. -/
structure Colours.Hidden (c : Colours) : Prop where
  darker : visible [c.darker] = []
  reset : visible [c.reset] = []
  yellow : visible [c.yellow] = []
  green : visible [c.green] = []
  blue : visible [c.blue] = []

theorem visible_origin {c : Colours} (hc : c.Hidden) {p : Nat × Actor} (hp : isAnsi p.2.name = false) :
    visible (originPieces c p) = p!"(" ++ Py.natStr 10 p.1 ++ p!") " ++ p.2.name ++ p!", " := by
  have h1 : visible [p!"(" ++ Py.natStr 10 p.1 ++ p!") "] = p!"(" ++ Py.natStr 10 p.1 ++ p!") " := by
    have : isAnsi (p!"(" ++ Py.natStr 10 p.1 ++ p!") ") = false := rfl
    simp only [visible, List.filter_cons, this]
    simp
  have h2 : visible [p.2.name] = p.2.name := by simp [visible, hp]
  unfold originPieces
  rw [visible_append, visible_append]
  have h3 : visible [c.darker, p!", ", c.reset] = p!", " := by
    rw [visible_cons, visible_cons p!", ", hc.darker, hc.reset]
    rfl
  have h4 : visible [c.darker, p!"(" ++ Py.natStr 10 p.1 ++ p!") ", c.reset] = p!"(" ++ Py.natStr 10 p.1 ++ p!") " := by
    rw [visible_cons, visible_cons (p!"(" ++ Py.natStr 10 p.1 ++ p!") "), hc.darker, hc.reset, h1]
    simp
  rw [h3, h4]
  congr 2
  cases hp2 : p.2 with
  | group g =>
    rw [hp2] at h2
    show visible [c.yellow, g, c.reset] = g
    have h2 : visible [g] = g := h2
    rw [visible_cons, visible_cons g, hc.yellow, hc.reset, h2]
    simp
  | host g =>
    rw [hp2] at h2
    show visible [c.green, g, c.reset] = g
    have h2 : visible [g] = g := h2
    rw [visible_cons, visible_cons g, hc.green, hc.reset, h2]
    simp

theorem originPieces_length (c : Colours) (p : Nat × Actor) : (originPieces c p).length = 9 := by
  unfold originPieces
  cases p.2 <;> rfl

theorem definitionCell_cons (c : Colours) (p q : Nat × Actor) (l : List (Nat × Actor)) : definitionCell c (p :: q :: l) = originPieces c p ++ definitionCell c (q :: l) := by
  unfold definitionCell
  simp only [List.flatMap_cons, List.length_append, originPieces_length]
  rw [List.take_append, originPieces_length]
  congr 1
  · exact List.take_of_length_le (by rw [originPieces_length]; omega)
  · congr 1
    omega

/-- C86, the column `defined by`: it names the positions and names of all origins of a variable, separated by commas. -/
theorem C86_origins {c : Colours} (hc : c.Hidden) : ∀ defs : List (Nat × Actor), (∀ p ∈ defs, isAnsi p.2.name = false) →
    visible (definitionCell c defs) = Py.join p!", " (defs.map fun p => p!"(" ++ Py.natStr 10 p.1 ++ p!") " ++ p.2.name)
  | [], _ => rfl
  | [p], h => by
    have h1 := visible_origin hc (h p (by simp))
    have h2 : originPieces c p = definitionCell c [p] ++ [c.darker, p!", ", c.reset] := by
      obtain ⟨n, a⟩ := p
      cases a <;> rfl
    have h3 : visible [c.darker, p!", ", c.reset] = p!", " := by
      rw [visible_cons, visible_cons p!", ", hc.darker, hc.reset]
      rfl
    rw [h2, visible_append, h3] at h1
    exact List.append_cancel_right h1
  | p :: q :: l, h => by
    rw [definitionCell_cons, visible_append, visible_origin hc (h p (by simp)), C86_origins hc (q :: l) (fun r hr => h r (by simp [hr]))]
    simp [Py.join]

/-- A row that shows nothing that the terminal takes for a control sequence, and whose colours are control sequences. -/
structure Row.Plain (varColour : Row → Str) (typeName : Obj → Str) (valueColour valueText : Obj → Str) (r : Row) : Prop where
  attr : isAnsi r.attr = false
  type : isAnsi (typeName r.value) = false
  origins : ∀ p ∈ r.definedBy, isAnsi p.2.name = false
  value : isAnsi (valueText r.value) = false
  varColour : visible [varColour r] = []
  valueColour : visible [valueColour r.value] = []

/-- What is to be read in the four columns for a variable: its name, its type, where it was defined, and its value. -/
def Row.columns (typeName valueText : Obj → Str) (r : Row) : List Str :=
  [r.attr, typeName r.value, Py.join p!", " (r.definedBy.map fun p => p!"(" ++ Py.natStr 10 p.1 ++ p!") " ++ p.2.name), valueText r.value]

/-- What is to be read above these columns. -/
def headings : List Str := [p!"variable", p!"type", p!"(prec) defined by", p!"value"]

/-- A line with texts in columns, filled up with spaces. -/
def plainLine (widths : List Nat) (texts : List Str) : Str :=
  Py.join p!" │ " ((texts.zip widths).map fun tw => tw.1 ++ List.replicate (tw.2 - tw.1.length) 32)

theorem lineText_plain (widths : List Nat) (row : List Cell) : lineText widths row = plainLine widths (row.map visible) := by
  unfold lineText plainLine
  rw [List.zip_map_left, List.map_map]
  rfl

theorem visible_coloured {a s b : Str} (ha : visible [a] = []) (hs : isAnsi s = false) (hb : visible [b] = []) : visible [a, s, b] = s := by
  have h2 : visible [s] = s := by simp [visible, hs]
  rw [visible_cons, visible_cons s, ha, hb, h2]
  simp

theorem visible_tableHeader {c : Colours} (hc : c.Hidden) : (tableHeader c).map visible = headings := by
  have h : visible [c.darker, p!"(prec) ", c.reset, c.blue, p!"defined by", c.reset] = p!"(prec) defined by" := by
    have e : [c.darker, p!"(prec) ", c.reset, c.blue, p!"defined by", c.reset] = [c.darker, p!"(prec) ", c.reset] ++ [c.blue, p!"defined by", c.reset] := rfl
    rw [e, visible_append, visible_coloured hc.darker rfl hc.reset, visible_coloured hc.blue rfl hc.reset]
    rfl
  have h1 := visible_coloured (s := p!"variable") hc.blue rfl hc.reset
  have h2 := visible_coloured (s := p!"type") hc.blue rfl hc.reset
  have h3 := visible_coloured (s := p!"value") hc.blue rfl hc.reset
  simp only [tableHeader, List.map_cons, List.map_nil, h, h1, h2, h3]
  rfl

theorem visible_tableRow {c : Colours} (hc : c.Hidden) {varColour : Row → Str} {typeName valueColour valueText : Obj → Str} {r : Row}
    (h : r.Plain varColour typeName valueColour valueText) : (tableRow c varColour typeName valueColour valueText r).map visible = r.columns typeName valueText := by
  simp only [tableRow, List.map_cons, List.map_nil, visible_coloured h.varColour h.attr hc.reset, visible_coloured hc.darker h.type hc.reset,
    C86_origins hc _ h.origins, visible_coloured h.valueColour h.value hc.reset]
  rfl

/-- C86, the table of a host: it can be printed for every host of every inventory, on every terminal, and shows the rows of C85, one line for
each, with the name, the type, the origins and the value of the variable below the headings of these columns, and at least 24 characters for
the name and 12 for the origins. -/
theorem C86_inspection {so : SetOrder} {src : Sources} {consts : Consts} {es : List (Entry HostDecl)} {groups : Option (List (Entry GroupDecl))} {d : Declared}
    {name : Str} {decl : HostDecl} {h : Host} (hl : LoadedHost so src consts es groups d name decl h) (terminal : Nat) {c : Colours} (hc : c.Hidden)
    (varColour : Row → Str) (typeName : Obj → Str) (valueColour valueText : Obj → Str) :
    ∃ rows lines, ∃ w₁ w₂ w₃ w₄ : Nat, inspectHost d.order.order name h = .ok rows
      ∧ inspectTable terminal c varColour typeName valueColour valueText d.order.order name h = .ok lines
      ∧ 24 ≤ w₁ ∧ 12 ≤ w₃
      ∧ ((∀ r ∈ rows, r.Plain varColour typeName valueColour valueText) →
        lines.map visible = plainLine [w₁, w₂, w₃, w₄] headings :: ruleText [w₁, w₂, w₃, w₄]
          :: rows.map fun r => plainLine [w₁, w₂, w₃, w₄] (r.columns typeName valueText)) := by
  obtain ⟨rows, h1, _⟩ := C85_rows hl
  obtain ⟨lines, h2⟩ := (C86_succeeds terminal c.darker c.reset (tableHeader c) (rows.map (tableRow c varColour typeName valueColour valueText)) (some [24, 0, 12, 0])).mpr
    ⟨by simp [tableHeader], fun row hr => by
      obtain ⟨r, _, rfl⟩ := List.mem_map.mp hr
      exact Nat.le_refl 4, fun ms hms => by cases hms; exact Nat.le_refl 4⟩
  obtain ⟨widths, hw, h3, h4⟩ := C86_lines hc.darker hc.reset h2
  match widths, hw with
  | [w₁, w₂, w₃, w₄], _ =>
    have m₁ := (h4 0 w₁ rfl).1 _ 24 rfl rfl
    have m₃ := (h4 2 w₃ rfl).1 _ 12 rfl rfl
    refine ⟨rows, lines, w₁, w₂, w₃, w₄, h1, ?_, by omega, by omega, fun hp => ?_⟩
    · unfold inspectTable
      rw [h1]
      exact h2
    · rw [h3, List.map_map, lineText_plain, visible_tableHeader hc]
      congr 2
      apply List.map_congr_left
      intro r hr
      show lineText _ (tableRow c varColour typeName valueColour valueText r) = _
      rw [lineText_plain, visible_tableRow hc (hp r hr)]

namespace Example

def colours : Colours := ⟨[27, 91, 57, 48, 109], [27, 91, 109], [27, 91, 51, 51, 109], [27, 91, 51, 50, 109], [27, 91, 51, 52, 109]⟩

example : colours.Hidden ∧ Colours.Hidden ⟨[], [], [], [], []⟩ := ⟨⟨rfl, rfl, rfl, rfl, rfl⟩, ⟨rfl, rfl, rfl, rfl, rfl⟩⟩

/-- The name of a variable, its type, its origins and its value, in a line of the table. -/
example : plainLine [10, 4, 12, 3] headings = p!"variable   │ type │ (prec) defined by │ value" := by decide +kernel
example (v : Obj) : Row.Plain (fun _ => colours.green) (fun _ => p!"int") (fun _ => colours.blue) (fun _ => p!"22")
    { attr := p!"port", value := v, declared := false, last := 12, definedBy := [(0, .group p!"all"), (12, .host p!"web")] } :=
  ⟨rfl, rfl, by simp [Actor.name]; decide, rfl, rfl, rfl⟩

example : visible (definitionCell colours [(0, .group p!"all"), (12, .host p!"web")]) = p!"(0) all, (12) web" := by decide +kernel

end Example

end Verif.Inventory
