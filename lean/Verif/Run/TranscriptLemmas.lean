/-
Lemmas for C114.
-/
import Verif.Run.TranscriptSpec
import Verif.Run.ReportProps

namespace Verif.Run.Transcript

open Py Script

theorem puts_append (s : Screen) (a b : Str) : s.puts (a ++ b) = (s.puts a).puts b := by simp [Screen.puts]

theorem puts_line {text : Str} (h : OneLine text) (above : List Str) : ∀ (p x : Str),
    Screen.puts ⟨above, p ++ x, p.length⟩ text = ⟨above, p ++ text ++ x.drop text.length, (p ++ text).length⟩ := by
  induction text with
  | nil => intro p x; simp [Screen.puts]
  | cons c text ih =>
    intro p x
    have hc10 : c ≠ 10 := fun e => h.1 (by simp [e])
    have hc13 : c ≠ 13 := fun e => h.2 (by simp [e])
    have ih := ih ⟨fun hm => h.1 (by simp [hm]), fun hm => h.2 (by simp [hm])⟩ (p ++ [c]) (x.drop 1)
    have hput : Screen.put ⟨above, p ++ x, p.length⟩ c = ⟨above, (p ++ [c]) ++ x.drop 1, (p ++ [c]).length⟩ := by
      simp [Screen.put, hc10, hc13]
    show Screen.puts (Screen.put ⟨above, p ++ x, p.length⟩ c) text = _
    rw [hput, ih]
    simp [List.drop_drop, Nat.add_comm]

theorem puts_page {l : Str} (h : OneLine l) (above : List Str) : (page above).puts l = ⟨above, l, l.length⟩ := by
  have := puts_line h above [] []
  simpa [page] using this

theorem puts_page_nl {l : Str} (h : OneLine l) (above : List Str) : (page above).puts (l ++ [10]) = page (above ++ [l]) := by
  rw [puts_append, puts_page h]
  simp [Screen.puts, Screen.put, page]

theorem puts_cr (above : List Str) (l : Str) (n : Nat) (text : Str) : Screen.puts ⟨above, l, n⟩ (13 :: text) = Screen.puts ⟨above, l, 0⟩ text := by
  simp [Screen.puts, Screen.put]

theorem puts_over {l : Str} (h : OneLine l) (above : List Str) : Screen.puts ⟨above, l, 0⟩ l = ⟨above, l, l.length⟩ := by
  have := puts_line h above [] l
  simpa using this

theorem puts_over_nl {l : Str} (h : OneLine l) (above : List Str) : Screen.puts ⟨above, l, 0⟩ (l ++ [10]) = page (above ++ [l]) := by
  rw [puts_append, puts_over h]
  simp [Screen.puts, Screen.put, page]

theorem puts_lines : ∀ {lines : List Str} (_ : ∀ l ∈ lines, OneLine l) (above : List Str),
    (page above).puts (lines.map (· ++ [10])).flatten = page (above ++ lines)
  | [], _, above => by simp [Screen.puts]
  | l :: ls, h, above => by
    rw [List.map_cons, List.flatten_cons, puts_append, puts_page_nl (h l (by simp)), puts_lines (fun x hx => h x (by simp [hx]))]
    simp

theorem oneLine_append {a b : Str} : OneLine (a ++ b) ↔ OneLine a ∧ OneLine b := by
  simp only [OneLine, List.mem_append, not_or]
  constructor
  · rintro ⟨⟨a, b⟩, c, d⟩; exact ⟨⟨a, c⟩, b, d⟩
  · rintro ⟨⟨a, b⟩, c, d⟩; exact ⟨⟨a, c⟩, b, d⟩

theorem oneLine_nil : OneLine [] := by simp [OneLine]

theorem oneLine_pad (o : Options) (level : Nat) : OneLine (pad o level) := by
  unfold pad
  split
  · constructor <;> (intro h; simp at h)
  · constructor <;>
    · intro h
      simp only [List.mem_flatten, List.mem_map] at h
      obtain ⟨l, ⟨i, _, rfl⟩, h⟩ := h
      split at h <;> revert h <;> decide

macro "one_line" : tactic => `(tactic| (repeat' first
  | assumption
  | exact oneLine_pad _ _
  | exact oneLine_nil
  | (unfold OneLine; decide)
  | (apply oneLine_append.mpr; constructor)))

theorem oneLine_title {o : Options} {t : Title} (h : TitleTame t) : OneLine (titleText o t) := by
  unfold titleText
  have h1 := h.opName.2
  have h2 := h.description.2
  have hd : OneLine (if o.dry then p!" (dry)" else []) := by split <;> one_line
  have hn : OneLine (nameText t.name) := by
    cases hn : t.name with
    | none => exact oneLine_nil
    | some n =>
      have := (h.name n hn).2
      unfold nameText
      one_line
  one_line

theorem oneLine_cut {brief : Bool} {n : Nat} {s out : Str} (h : Cut brief n s out) (hs : OneLine s) : OneLine out := by
  unfold Cut at h
  split at h
  · subst h
    exact oneLine_append.mpr ⟨⟨fun hm => hs.1 (List.mem_of_mem_take hm), fun hm => hs.2 (List.mem_of_mem_take hm)⟩, by unfold OneLine; decide⟩
  · subst h; exact hs

theorem oneLine_change {brief : Bool} {repr : Val → Str} {k : Str} {u v : Val} {x : Str} (h : ChangeText brief repr k u v x)
    (hk : OneLine k) (hu : OneLine (toStr repr u)) (hv : OneLine (toStr repr v)) : OneLine x := by
  cases h with
  | set a b =>
    have h1 := oneLine_cut a hk
    have h2 := oneLine_cut b hv
    one_line
  | changed _ a b c =>
    have h1 := oneLine_cut a hk
    have h2 := oneLine_cut b hu
    have h3 := oneLine_cut c hv
    one_line

theorem oneLine_states {verbose : Nat} {repr : Val → Str} {initial f : Script.Dict} {ts : List Str} (h : StateTexts verbose repr initial f ts)
    (hi : ∀ k v, (k, v) ∈ initial → OneLine (toStr repr v)) (hf : ∀ k v, (k, v) ∈ f → OneLine k ∧ OneLine (toStr repr v)) :
    ∀ t ∈ ts, OneLine t := by
  induction h with
  | nil => simp
  | unset _ ih => exact ih fun k v hm => hf k v (by simp [hm])
  | unchanged _ _ _ _ _ ih => exact ih fun k v hm => hf k v (by simp [hm])
  | still _ hu _ _ _ ih =>
    intro t ht
    rcases List.mem_cons.mp ht with rfl | ht
    · have h1 := (hf _ _ (List.mem_cons_self ..)).1
      have h2 := hi _ _ (get_mem hu)
      one_line
    · exact ih (fun k v hm => hf k v (by simp [hm])) t ht
  | changed _ hu _ hct _ ih =>
    intro t ht
    rcases List.mem_cons.mp ht with rfl | ht
    · exact oneLine_change hct (hf _ _ (List.mem_cons_self ..)).1 (hi _ _ (get_mem hu)) (hf _ _ (List.mem_cons_self ..)).2
    · exact ih (fun k v hm => hf k v (by simp [hm])) t ht

theorem oneLine_join {sep : Str} (hs : OneLine sep) : ∀ {l : List Str}, (∀ x ∈ l, OneLine x) → OneLine (Py.join sep l)
  | [], _ => oneLine_nil
  | [x], h => h x (by simp)
  | x :: y :: l, h => by
    rw [Py.join]
    exact oneLine_append.mpr ⟨oneLine_append.mpr ⟨h x (by simp), hs⟩, oneLine_join hs fun z hz => h z (by simp [hz])⟩

theorem oneLine_log (b : Bytes) : OneLine (decodeEscapeLog b) := by
  have h := C75_harmless_partial b
  constructor <;> (intro hm; have := h _ hm; unfold Harmless at this; omega)

theorem oneLine_diffs {udiff : List Bytes → List Bytes → List Bytes} {ds : List (Str × Option Bytes × Option Bytes)} {ts : List Str}
    (h : DiffTexts udiff ds ts) (hf : ∀ d ∈ ds, OneLine d.1) : ∀ t ∈ ts, OneLine t := by
  induction h with
  | nil => simp
  | @cons file old new rest title more ht _ ih =>
    have hfile : OneLine file := hf (file, old, new) (by simp)
    have ha : OneLine (actionOf old new) := by cases old <;> cases new <;> (simp only [actionOf]; unfold OneLine; decide)
    have htitle : OneLine title := by rw [ht]; one_line
    have hbar : OneLine (List.replicate title.length 0x2500) := by constructor <;> (intro hm; have := List.eq_of_mem_replicate hm; omega)
    intro t hm
    simp only [List.cons_append, List.nil_append, List.mem_cons, List.mem_append, List.mem_map] at hm
    rcases hm with rfl | rfl | rfl | ⟨b, _, rfl⟩ | hm
    · exact hbar
    · exact htitle
    · exact hbar
    · exact oneLine_log b
    · exact ih (fun d hd => hf d (by simp [hd])) t hm

theorem oneLine_framed : ∀ {ls : List Str}, (∀ l ∈ ls, OneLine l) → ∀ l ∈ framed ls, OneLine l
  | [], _ => by simp [framed]
  | [x], h => by
    have := h x (by simp)
    intro l hl
    simp only [framed, List.mem_singleton] at hl
    subst hl
    one_line
  | x :: y :: ls, h => by
    have hx := h x (by simp)
    intro l hl
    simp only [framed, List.mem_cons] at hl
    rcases hl with rfl | hl
    · one_line
    · exact oneLine_framed (ls := y :: ls) (fun z hz => h z (by simp [hz])) l (by simpa [framed] using hl)

theorem oneLine_summary {udiff : List Bytes → List Bytes → List Bytes} {repr : Val → Str} {o : Options} {t : Title} {r : Report} {lines : List Str}
    (h : Summary udiff repr o t r lines) (ht : TitleTame t) (hr : ReportTame repr r) : ∀ l ∈ lines, OneLine l := by
  have htitle := oneLine_title (o := o) ht
  cases h with
  | failed =>
    intro l hl
    simp only [List.mem_cons, List.not_mem_nil, or_false] at hl
    rcases hl with rfl | rfl
    · exact htitle
    · have hm : OneLine (messageText r.result.failureMessage) := by
        cases hm : r.result.failureMessage with
        | none => unfold OneLine messageText; decide
        | some m => exact (hr.message m hm).2
      one_line
  | quiet =>
    intro l hl
    rw [List.mem_singleton] at hl
    subst hl
    exact htitle
  | @changes _ _ ts ds hts hds =>
    have h1 := oneLine_states hts (fun k v hm => (hr.initial k v hm).2) (fun k v hm => ⟨(hr.final k v hm).1.2, (hr.final k v hm).2.2⟩)
    have h2 : ∀ d ∈ ds, OneLine d := by
      split at hds
      · exact oneLine_diffs hds fun d hd => (hr.files d hd).2
      · subst hds; simp
    intro l hl
    rcases List.mem_cons.mp hl with rfl | hl
    · exact htitle
    · rcases List.mem_append.mp hl with hl | hl
      · split at hl
        · cases hl
        · rw [List.mem_singleton] at hl
          subst hl
          refine oneLine_append.mpr ⟨?_, oneLine_join (by unfold OneLine; decide) h1⟩
          split <;> (unfold OneLine; decide)
      · exact oneLine_framed h2 l hl

theorem Displays.append {a b : Str} {la lb : List Str} (ha : Displays a la) (hb : Displays b lb) : Displays (a ++ b) (la ++ lb) := by
  obtain ⟨pa, hua, hpa⟩ := ha
  obtain ⟨pb, hub, hpb⟩ := hb
  refine ⟨pa ++ pb, hua.append hub, fun before => ?_⟩
  rw [puts_append, hpa, hpb, List.append_assoc]

theorem Displays.nil : Displays [] [] := ⟨[], .nil, fun before => by simp [Screen.puts]⟩

theorem displays_line {text l : Str} (h : Uncoloured text (l ++ [10])) (hl : OneLine l) : Displays text [l] :=
  ⟨_, h, fun before => puts_page_nl hl before⟩

theorem layout_eq (o : Options) (level : Nat) (lines : List Str) : layout o level lines = 13 :: ((indented o level lines).map (· ++ [10])).flatten := by
  simp [layout, indented, Function.comp_def]

theorem displays_layout {o : Options} {level : Nat} {text : Str} {lines : List Str} (h : Uncoloured text (layout o level lines))
    (hl : ∀ l ∈ lines, OneLine l) : Displays text (indented o level lines) := by
  refine ⟨_, h, fun before => ?_⟩
  rw [layout_eq]
  show Screen.puts ⟨before, [], 0⟩ (13 :: _) = _
  rw [puts_cr]
  refine puts_lines (fun l hm => ?_) before
  obtain ⟨x, hx, rfl⟩ := List.mem_map.mp hm
  exact oneLine_append.mpr ⟨oneLine_pad o level, hl x hx⟩

/-- The title that was printed early is covered. -/
theorem displays_early {o : Options} {level : Nat} {early text l : Str} {lines : List Str} (he : Uncoloured early (pad o level ++ l))
    (h : Uncoloured text (layout o level (l :: lines))) (hl : ∀ x ∈ l :: lines, OneLine x) : Displays (early ++ text) (indented o level (l :: lines)) := by
  refine ⟨_, he.append h, fun before => ?_⟩
  have h0 : OneLine (pad o level ++ l) := oneLine_append.mpr ⟨oneLine_pad o level, hl l (by simp)⟩
  rw [puts_append, puts_page h0, layout_eq, puts_cr]
  show Screen.puts ⟨before, pad o level ++ l, 0⟩ (((pad o level ++ l) :: indented o level lines).map (· ++ [10])).flatten = _
  rw [List.map_cons, List.flatten_cons, puts_append, puts_over_nl h0, puts_lines]
  · simp [indented]
  · intro x hm
    obtain ⟨y, hy, rfl⟩ := List.mem_map.mp hm
    exact oneLine_append.mpr ⟨oneLine_pad o level, hl y (by simp [hy])⟩

theorem summary_head {udiff : List Bytes → List Bytes → List Bytes} {repr : Val → Str} {o : Options} {t : Title} {r : Report} {lines : List Str}
    (h : Summary udiff repr o t r lines) : ∃ more, lines = titleText o t :: more := by
  cases h <;> exact ⟨_, rfl⟩

theorem noEscapes {repr : Val → Str} {t : Title} {r : Report} (ht : TitleTame t) (hr : ReportTame repr r) : NoEscapes repr t r where
  opName := ht.opName.1
  description := ht.description.1
  name n h := (ht.name n h).1
  message m h := (hr.message m h).1
  initial k v h := (hr.initial k v h).1
  final k v h := ⟨(hr.final k v h).1.1, (hr.final k v h).2.1⟩
  files d h := (hr.files d h).1

theorem prints {udiff : List Bytes → List Bytes → List Bytes} {repr : Val → Str} (hud : ∀ a b, ∀ l ∈ (udiff a b).drop 2, l ≠ []) (o : Options)
    (level : Nat) (t : Title) {r : Report} (hr : ReportTame repr r) : (printOperation udiff repr o level t r).2 = none := by
  cases hs : r.result.success with
  | false => simp [printOperation, hs]
  | true =>
    cases hc : o.changes with
    | false => simp [printOperation, hs, hc]
    | true =>
      rw [C82_completes o level t r hs hc hud, printable, List.all_eq_true]
      rintro ⟨k, v⟩ hm
      by_cases hv : v = .null
      · simp [hv, Val.isNull]
      · simp [hr.keys k v hm hv]

/-- The title that is printed early -/
theorem early_plain {o : Options} (hdbg : o.debug = false) (level : Nat) {t : Title} (ht : TitleTame t) :
    Uncoloured (printEarly o level t) (pad o level ++ titleText o t) := by
  unfold printEarly
  rw [hdbg]
  exact Uncoloured.cast (printTitle_plain (.col o (by decide)) (by unfold NoEsc; decide) ht.opName.1 ht.description.1 fun n hn => (ht.name n hn).1) (by simp)

theorem displays_operation {udiff : List Bytes → List Bytes → List Bytes} {repr : Val → Str} (hud : ∀ a b, ∀ l ∈ (udiff a b).drop 2, l ≠ []) {o : Options}
    (hdbg : o.debug = false) (level : Nat) {t : Title} {r : Report} (ht : TitleTame t) (hr : ReportTame repr r) (early : Bool) :
    ∃ lines, Summary udiff repr o t r lines
      ∧ Displays ((if early then printEarly o level t else []) ++ (printOperation udiff repr o level t r).1) (indented o level lines) := by
  obtain ⟨lines, hs, hu⟩ := C82_text o level t r (noEscapes ht hr) (prints hud o level t hr)
  have hl := oneLine_summary hs ht hr
  refine ⟨lines, hs, ?_⟩
  cases early with
  | false => exact displays_layout hu hl
  | true =>
    obtain ⟨more, rfl⟩ := summary_head hs
    exact displays_early (early_plain hdbg level ht) hu hl

theorem displays_script {o : Options} (level : Nat) {path : Str} {name : Option Str} (hp : Tame path) (hn : ∀ n, name = some n → Tame n) :
    Displays (scriptTitle o level path name) [pad o level ++ scriptText path name] := by
  have h1 := hp.1
  have h2 := hp.2
  cases name with
  | none =>
    refine displays_line (Uncoloured.cast (printIndented_plain (m' := [] ++ p!"script" ++ [] ++ p!" " ++ path) ?_ nl) (by simp [scriptText])) ?_
    · plain_text
    · unfold scriptText; one_line
  | some n =>
    have h3 := (hn n rfl).1
    have h4 := (hn n rfl).2
    refine displays_line (Uncoloured.cast (printIndented_plain (m' := [] ++ p!"script" ++ [] ++ p!" " ++ path ++ p!" " ++ [] ++ p!"(" ++ n ++ p!")" ++ []) ?_ nl) (by simp [scriptText])) ?_
    · plain_text
    · unfold scriptText; one_line

theorem displays_exec {udiff : List Bytes → List Bytes → List Bytes} {repr : Val → Str} (hud : ∀ a b, ∀ l ∈ (udiff a b).drop 2, l ≠ []) {o : Options}
    (hdbg : o.debug = false) (code : Code) : ∀ (_ : code.Tame repr) (depth : Nat), (exec udiff repr o code depth).level = depth
      ∧ ∃ lines, Lines udiff repr o depth code lines (exec udiff repr o code depth).failed ∧ Displays (exec udiff repr o code depth).text lines := by
  induction code with
  | done => exact fun _ depth => ⟨rfl, [], .done, .nil⟩
  | throw => exact fun _ depth => ⟨rfl, [], .throw, .nil⟩
  | operation early t r raises k ih =>
    intro h depth
    obtain ⟨ht, hr, hk⟩ := h
    have hf : (raises || (printOperation udiff repr o depth t r).2.isSome) = raises := by rw [prints hud o depth t hr]; simp
    obtain ⟨hlev, rest, hl, hd⟩ := ih raises (hk raises) depth
    obtain ⟨ls, hs, hds⟩ := displays_operation hud hdbg depth ht hr early
    simp only [exec, hf, Out.after]
    exact ⟨hlev, _, .operation hs hl, hds.append hd⟩
  | nested t parts k ihp ih =>
    intro h depth
    obtain ⟨ht, hp, hk⟩ := h
    obtain ⟨hlev, inner, hl, hd⟩ := ihp hp (depth + 1)
    rw [Int.natCast_add, Int.natCast_one] at hlev hl hd
    obtain ⟨hlev', rest, hl', hd'⟩ := ih (exec udiff repr o parts (depth + 1)).failed (hk _) depth
    simp only [exec, Out.after, hlev, Int.add_sub_cancel]
    refine ⟨hlev', _, .nested hl hl', ?_⟩
    have htitle : Displays (printEarly o depth t ++ [10]) [pad o depth ++ titleText o t] :=
      displays_line ((early_plain hdbg depth ht).append (.clean nl)) (oneLine_append.mpr ⟨oneLine_pad o depth, oneLine_title ht⟩)
    simpa using (htitle.append hd).append hd'
  | script path name body k ihb ih =>
    intro h depth
    obtain ⟨hp, hn, hb, hk⟩ := h
    obtain ⟨hlev, inner, hl, hd⟩ := ihb hb (depth + 1)
    rw [Int.natCast_add, Int.natCast_one] at hlev hl hd
    obtain ⟨hlev', rest, hl', hd'⟩ := ih (exec udiff repr o body (depth + 1)).failed (hk _) depth
    simp only [exec, Out.after, hlev, Int.add_sub_cancel]
    refine ⟨hlev', _, .script hl hl', ?_⟩
    simpa using ((displays_script depth hp hn).append hd).append hd'

end Verif.Run.Transcript
