/-
C82: what the summary of an operation shows.
-/
import Verif.Run.ReportSpec
import Verif.Run.LoggerProps
import Verif.Script.Lemmas

namespace Verif.Run

open Py Script

theorem Uncoloured.append {a b a' b' : Str} (h : Uncoloured a a') (h' : Uncoloured b b') : Uncoloured (a ++ b) (a' ++ b') := by
  induction h with
  | nil => exact h'
  | code ps hps _ ih =>
    have := Uncoloured.code ps hps ih
    simpa using this
  | char c hc _ ih => exact .char c hc ih

theorem Uncoloured.clean {s : Str} (h : NoEsc s) : Uncoloured s s := by
  induction s with
  | nil => exact .nil
  | cons c s ih => exact .char c (fun e => h (by simp [e])) (ih fun hm => h (by simp [hm]))

theorem Uncoloured.ansi {code : Str} (h : ∀ c ∈ code, c = 59 ∨ 48 ≤ c ∧ c ≤ 57) : Uncoloured (ansi code) [] := .code code h .nil

theorem Uncoloured.col (o : Options) {code : Str} (h : ∀ c ∈ code, c = 59 ∨ 48 ≤ c ∧ c ≤ 57) : Uncoloured (Run.col o code) [] := by
  unfold Run.col
  split
  · exact .ansi h
  · exact .nil

theorem Uncoloured.cast {a b b' : Str} (h : Uncoloured a b') (e : b' = b) : Uncoloured a b := e ▸ h

/-- Line by line. -/
inductive AllUncoloured : List Str → List Str → Prop where
  | nil : AllUncoloured [] []
  | cons {a a' : Str} {l l' : List Str} : Uncoloured a a' → AllUncoloured l l' → AllUncoloured (a :: l) (a' :: l')

theorem AllUncoloured.append {a a' b b' : List Str} (h : AllUncoloured a a') (h' : AllUncoloured b b') : AllUncoloured (a ++ b) (a' ++ b') := by
  induction h with
  | nil => exact h'
  | cons h1 _ ih => exact .cons h1 ih

theorem Uncoloured.join {sep sep' : Str} (hs : Uncoloured sep sep') {l l' : List Str} (h : AllUncoloured l l') : Uncoloured (Py.join sep l) (Py.join sep' l') := by
  induction h with
  | nil => exact .nil
  | cons h1 h2 ih =>
    cases h2 with
    | nil => exact h1
    | cons h3 h4 => exact (h1.append hs).append ih

theorem Uncoloured.flatten {l l' : List Str} (h : AllUncoloured l l') : Uncoloured l.flatten l'.flatten := by
  induction h with
  | nil => exact .nil
  | cons h1 _ ih => exact h1.append ih

macro "plain_text" : tactic => `(tactic| (repeat' first
  | exact Uncoloured.col _ (by decide)
  | exact Uncoloured.ansi (by decide)
  | assumption
  | (apply Uncoloured.clean; first | assumption | (unfold NoEsc; decide))
  | apply Uncoloured.append))

theorem colouredPrefix_plain : ∀ n, Uncoloured (colouredPrefix n) ((List.range n).map fun i => if i % 2 = 0 then p!"│ " else p!"╵ ").flatten
  | 0 => .nil
  | n + 1 => by
    rw [colouredPrefix, List.range_succ, List.map_append, List.flatten_append]
    refine (colouredPrefix_plain n).append ?_
    by_cases h : n % 2 = 0
    · simp only [h, if_true, List.map_cons, List.map_nil, List.flatten_cons, List.flatten_nil, List.append_nil]
      refine Uncoloured.cast (b' := [] ++ p!"│" ++ [] ++ p!" ") ?_ rfl
      plain_text
    · simp only [h, if_false, List.map_cons, List.map_nil, List.flatten_cons, List.flatten_nil, List.append_nil]
      refine Uncoloured.cast (b' := [] ++ p!"╵" ++ [] ++ p!" ") ?_ rfl
      plain_text

theorem prefix_plain (o : Options) (level : Nat) : Uncoloured (prefixOf o level) (pad o level) := by
  unfold prefixOf pad useColor
  cases o.noColor with
  | false => exact colouredPrefix_plain level
  | true =>
    simp only [Bool.not_true, Bool.false_eq_true, if_false, if_true, C71_indentation]
    exact .clean (by unfold NoEsc; simp)

theorem printIndented_plain {o : Options} {level : Nat} {m m' e : Str} (h : Uncoloured m m') (he : NoEsc e) :
    Uncoloured (printIndented o level m e) (pad o level ++ m' ++ e) :=
  ((prefix_plain o level).append h).append (.clean he)

theorem nl : NoEsc [10] := by unfold NoEsc; decide

theorem printTitle_plain {o : Options} {level : Nat} {t : Title} {colour e : Str} (hc : Uncoloured colour []) (he : NoEsc e) (h1 : NoEsc t.opName)
    (h2 : NoEsc t.description) (h3 : ∀ n, t.name = some n → NoEsc n) :
    Uncoloured (printTitle o level t colour e) (pad o level ++ titleText o t ++ e) := by
  unfold printTitle titleText
  refine printIndented_plain ?_ he
  have hd : Uncoloured (if o.dry = true then p!" " ++ col o p!"90" ++ p!"(dry)" ++ col o p!"" else []) (if o.dry then p!" (dry)" else []) := by
    split
    · refine Uncoloured.cast (b' := p!" " ++ [] ++ p!"(dry)" ++ []) ?_ rfl
      plain_text
    · exact .nil
  have hn : Uncoloured (nameIfGiven o t.name) (nameText t.name) := by
    cases hn : t.name with
    | none => exact .nil
    | some n =>
      have := h3 n hn
      refine Uncoloured.cast (b' := p!" " ++ [] ++ (p!"(" ++ n ++ p!")") ++ []) ?_ (by simp [nameText])
      plain_text
  refine Uncoloured.cast ((((((hc.append (.clean h1)).append (.col o (by decide))).append hd).append (.clean (s := p!" ") (by unfold NoEsc; decide))).append (.clean h2)).append hn) ?_
  simp

theorem cut_of {n : Nat} {m : Int} (hm : m = n) (hn : 1 ≤ n) (o : Options) (s : Str) :
    Cut (o.verbose == 0) n s (if o.verbose == 0 then ellipsis s m else s) := by
  subst hm
  unfold Cut
  cases hv : (o.verbose == 0) with
  | false => simp
  | true =>
    simp only [if_true, true_and]
    unfold ellipsis
    by_cases h : n < s.length
    · rw [if_pos h, if_pos (by omega)]
      unfold sliceTo
      rw [if_pos (by omega)]
      have : ((n : Int) - 1).toNat = n - 1 := by omega
      rw [this]
    · rw [if_neg h, if_neg (by omega)]

theorem noEsc_append {a b : Str} : NoEsc (a ++ b) ↔ NoEsc a ∧ NoEsc b := by simp [NoEsc, not_or]

theorem noEsc_take {s : Str} (h : NoEsc s) (n : Nat) : NoEsc (s.take n) := fun hm => h (List.mem_of_mem_take hm)

theorem Cut.noEsc {brief : Bool} {n : Nat} {s out : Str} (h : Cut brief n s out) (hs : NoEsc s) : NoEsc out := by
  unfold Cut at h
  split at h
  · rw [h]; exact noEsc_append.mpr ⟨noEsc_take hs _, by unfold NoEsc; decide⟩
  · rw [h]; exact hs

theorem isNull_iff {v : Val} : v.isNull = true ↔ v = .null := by cases v <;> simp [Val.isNull]

theorem get_mem {d : Script.Dict} {k : Str} {v : Val} (h : d.get k = some v) : (k, v) ∈ d := by
  induction d with
  | nil => cases h
  | cons e d ih =>
    obtain ⟨k', v'⟩ := e
    unfold Script.Dict.get at h
    split at h
    · rename_i hk; cases h; simp [hk]
    · exact List.mem_cons_of_mem _ (ih h)

/-- How a value is shown: text as it is, numbers in decimal, bytes by two hexadecimal digits each; `repr` is how Python writes lists and
dictionaries. -/
inductive ValueText (repr : Val → Str) : Val → Str → Prop where
  | none : ValueText repr .null p!"None"
  | true : ValueText repr (.bool true) p!"True"
  | false : ValueText repr (.bool false) p!"False"
  | int {i : Int} {s : Str} (hdigits : ∀ c ∈ s, c = 45 ∨ 48 ≤ c ∧ c ≤ 57) (hread : Py.parseInt 10 s = some i) : ValueText repr (.int i) s
  | str (s : Str) : ValueText repr (.str s) s
  | bytes (b : Bytes) (ds : List Str) (hlen : ds.length = b.length) (hhex : ∀ i (h : i < b.length) (h' : i < ds.length), HexOf b[i].toNat ds[i]) :
      ValueText repr (.bytes b) ds.flatten
  | list (l : List Str) : ValueText repr (.list l) (repr (.list l))
  | dict (d : Script.Dict) : ValueText repr (.dict d) (repr (.dict d))

/-- C82: the text in which a value is shown. -/
theorem C82_values (repr : Val → Str) (v : Val) : ValueText repr v (toStr repr v) := by
  cases v with
  | null => exact .none
  | bool b =>
    cases b
    · exact .false
    · exact .true
  | int i =>
    cases i with
    | ofNat n => exact .int (fun c hc => .inr (natStr_chars (by omega) (by omega) n c hc)) (parseInt_natStr (.inr rfl) n)
    | negSucc n =>
      have hch := natStr_chars (b := 10) (by omega) (by omega) (n + 1)
      refine .int (fun c hc => ?_) ?_
      · rcases List.mem_cons.mp hc with rfl | hc
        · exact .inl rfl
        · exact .inr (hch c hc)
      · show Py.parseInt 10 (45 :: natStr 10 (n + 1)) = _
        unfold Py.parseInt
        rw [strip_eq_self (fun c hcm => by
          rcases List.mem_cons.mp hcm with rfl | hcm
          · decide
          · exact isSpace_digit (hch c hcm))]
        simp only [parseNat_natStr (.inr rfl), Option.map_some, Option.some.injEq]
        rfl
  | str s => exact .str s
  | bytes b =>
    refine .bytes b (b.map fun x => [hexDigit (x.toNat / 16), hexDigit (x.toNat % 16)]) (by simp) (fun i h h' => ?_)
    rw [List.getElem_map]
    exact hexOf b[i].toNat_lt
  | list l => exact .list l
  | dict d => exact .dict d

example : toStr (fun _ => []) (.int (-120)) = p!"-120" ∧ toStr (fun _ => []) (.bytes [10, 255]) = p!"0aff" := by decide

/-- One entry. -/
theorem stateInfo_plain {o : Options} {repr : Val → Str} {k : Str} {u v : Val} (hk : NoEsc k) (hu : NoEsc (toStr repr u)) (hv : NoEsc (toStr repr v)) :
    match stateInfo o repr k u v with
    | none => u.eq v = true ∧ o.verbose = 0
    | some e => ∃ e', Uncoloured e e' ∧ (u.eq v = true ∧ o.verbose ≠ 0 ∧ e' = k ++ p!": " ++ toStr repr u
        ∨ u.eq v = false ∧ ChangeText (o.verbose == 0) repr k u v e') := by
  unfold stateInfo
  dsimp only
  have ck := cut_of (n := 12) (m := 12) rfl (by decide) o k
  have cu := cut_of (n := 9) (m := 9) rfl (by decide) o (toStr repr u)
  have cv := cut_of (n := 9) (m := 9) rfl (by decide) o (toStr repr v)
  have cv' := cut_of (n := 21) (m := 9 + 3 + 9) rfl (by decide) o (toStr repr v)
  have nk := ck.noEsc hk
  have nu := cu.noEsc hu
  have nv := cv.noEsc hv
  have nv' := cv'.noEsc hv
  by_cases he : u.eq v = true
  · rw [if_pos he]
    by_cases hverb : o.verbose = 0
    · rw [if_neg (by omega)]
      exact ⟨he, hverb⟩
    · rw [if_pos (by omega)]
      have hb : (o.verbose == 0) = false := by simp [hverb]
      rw [hb]
      dsimp only
      refine ⟨_, ?_, .inl ⟨he, hverb, rfl⟩⟩
      refine Uncoloured.cast (b' := [] ++ k ++ p!": " ++ toStr repr u ++ []) ?_ (by simp)
      plain_text
  · have he' : u.eq v = false := by simpa using he
    rw [if_neg he]
    by_cases hn : u.isNull = true
    · rw [if_pos hn, if_pos hn]
      have := isNull_iff.mp hn
      subst this
      generalize (if (o.verbose == 0) = true then ellipsis k 12 else k) = a at *
      generalize (if (o.verbose == 0) = true then ellipsis (toStr repr v) (9 + 3 + 9) else toStr repr v) = b at *
      refine ⟨_, ?_, .inr ⟨he', .set ck cv'⟩⟩
      refine Uncoloured.cast (b' := [] ++ a ++ p!": " ++ [] ++ b ++ []) ?_ (by simp)
      plain_text
    · rw [if_neg hn, if_neg hn]
      generalize (if (o.verbose == 0) = true then ellipsis k 12 else k) = a at *
      generalize (if (o.verbose == 0) = true then ellipsis (toStr repr u) 9 else toStr repr u) = b at *
      generalize (if (o.verbose == 0) = true then ellipsis (toStr repr v) 9 else toStr repr v) = c at *
      refine ⟨_, ?_, .inr ⟨he', .changed (fun h => hn (isNull_iff.mpr h)) ck cu cv⟩⟩
      refine Uncoloured.cast (b' := [] ++ a ++ p!": " ++ [] ++ b ++ [] ++ p!" → " ++ [] ++ c ++ []) ?_ (by simp)
      plain_text

theorem stateInfos_plain {o : Options} {repr : Val → Str} {initial : Script.Dict} (hi : ∀ k v, (k, v) ∈ initial → NoEsc (toStr repr v)) :
    ∀ {f : Script.Dict} {infos : List Str}, (∀ k v, (k, v) ∈ f → NoEsc k ∧ NoEsc (toStr repr v)) → stateInfos o repr initial f = .ok infos →
      ∃ ts, AllUncoloured infos ts ∧ StateTexts o.verbose repr initial f ts
  | [], infos, _, h => by
    cases h
    exact ⟨[], .nil, .nil⟩
  | (k, v) :: f, infos, hf, h => by
    unfold stateInfos at h
    have hf' : ∀ k v, (k, v) ∈ f → NoEsc k ∧ NoEsc (toStr repr v) := fun k v hm => hf k v (by simp [hm])
    by_cases hn : v.isNull = true
    · rw [if_pos hn] at h
      obtain ⟨ts, h1, h2⟩ := stateInfos_plain hi hf' h
      rw [isNull_iff.mp hn]
      exact ⟨ts, h1, .unset h2⟩
    · rw [if_neg hn] at h
      have hv0 : v ≠ .null := fun e => hn (isNull_iff.mpr e)
      cases hg : initial.get k with
      | none => rw [hg] at h; cases h
      | some u =>
        rw [hg] at h
        dsimp only at h
        cases hr : stateInfos o repr initial f with
        | error e => rw [hr] at h; cases h
        | ok rest =>
          obtain ⟨ts, h1, h2⟩ := stateInfos_plain hi hf' hr
          rw [hr] at h
          dsimp only at h
          have hp := stateInfo_plain (o := o) (hf k v (by simp)).1 (hi k u (get_mem hg)) (hf k v (by simp)).2
          cases hs : stateInfo o repr k u v with
          | none =>
            rw [hs] at h hp
            cases h
            exact ⟨ts, h1, .unchanged hv0 hg hp.1 hp.2 h2⟩
          | some e =>
            rw [hs] at h hp
            cases h
            obtain ⟨e', hu, ⟨he, hverb, rfl⟩ | ⟨he, hc⟩⟩ := hp
            · exact ⟨_, .cons hu h1, .still hv0 hg he hverb h2⟩
            · exact ⟨_, .cons hu h1, .changed hv0 hg he hc h2⟩

theorem noEsc_log (b : Bytes) : NoEsc (decodeEscapeLog b) := by
  intro h
  have := C75_harmless_partial b 27 h
  revert this
  unfold Harmless
  decide

theorem applyAll_plain : ∀ {l l' : List Str}, (∀ x ∈ l, NoEsc x) → applyAll l = .ok l' → AllUncoloured l' l
  | [], l', _, h => by cases h; exact .nil
  | [] :: l, l', _, h => by unfold applyAll applyColor at h; cases h
  | (c :: x) :: l, l', hl, h => by
    unfold applyAll applyColor at h
    dsimp only at h
    cases hr : applyAll l with
    | error e => rw [hr] at h; cases h
    | ok rest =>
      rw [hr] at h
      cases h
      refine .cons ?_ (applyAll_plain (fun x hx => hl x (by simp [hx])) hr)
      refine Uncoloured.cast (b' := [] ++ (c :: x) ++ []) ?_ (by simp)
      refine ((Uncoloured.ansi ?_).append (.clean (hl _ (by simp)))).append (.ansi (by decide))
      split
      · decide
      · split
        · decide
        · split <;> decide

theorem diffLines_plain {udiff : List Bytes → List Bytes → List Bytes} : ∀ {ds : List (Str × Option Bytes × Option Bytes)} {lines : List Str},
    (∀ d ∈ ds, NoEsc d.1) → diffLines udiff ds = .ok lines → ∃ ts, AllUncoloured lines ts ∧ DiffTexts udiff ds ts
  | [], lines, _, h => by cases h; exact ⟨[], .nil, .nil⟩
  | (file, old, new) :: ds, lines, hf, h => by
    unfold diffLines diffText at h
    dsimp only at h
    simp only [if_true] at h
    have hact : (if old = none then p!"created" else if new = none then p!"deleted" else p!"modified") = actionOf old new := by
      cases old <;> cases new <;> rfl
    rw [hact] at h
    cases ha : applyAll (((udiff (diffInput old) (diffInput new)).drop 2).map decodeEscapeLog) with
    | error e => rw [ha] at h; cases h
    | ok dl =>
      rw [ha] at h
      dsimp only at h
      cases hr : diffLines udiff ds with
      | error e => rw [hr] at h; cases h
      | ok more =>
        rw [hr] at h
        cases h
        obtain ⟨ts, h1, h2⟩ := diffLines_plain (fun d hd => hf d (by simp [hd])) hr
        refine ⟨_, ?_, .cons rfl h2⟩
        refine AllUncoloured.append (AllUncoloured.append ?_ (applyAll_plain ?_ ha)) h1
        · have ht : NoEsc (actionOf old new ++ p!": " ++ file) := by
            refine noEsc_append.mpr ⟨noEsc_append.mpr ⟨?_, by unfold NoEsc; decide⟩, hf (file, old, new) (by simp)⟩
            cases old <;> cases new <;> simp [NoEsc, actionOf]
          generalize actionOf old new ++ p!": " ++ file = title at ht ⊢
          have hb : NoEsc (List.replicate title.length 0x2500) := by unfold NoEsc; simp
          have one : ∀ {x : Str}, NoEsc x → Uncoloured (ansi p!"33" ++ x ++ ansi p!"") x := by
            intro x hx
            refine Uncoloured.cast (b' := [] ++ x ++ []) ?_ (by simp)
            plain_text
          exact .cons (one hb) (.cons (one ht) (.cons (one hb) .nil))
        · intro x hx
          obtain ⟨b, _, rfl⟩ := List.mem_map.mp hx
          exact noEsc_log b

theorem printDiffLines_plain {o : Options} {level : Nat} : ∀ {l l' : List Str}, AllUncoloured l l' →
    Uncoloured (printDiffLines o level l) ((framed l').map fun x => pad o level ++ x ++ [10]).flatten
  | [], _, .nil => .nil
  | [a], _, .cons (a' := a') h .nil => by
    refine Uncoloured.cast (printIndented_plain (m' := [] ++ p!"└ " ++ [] ++ a') ?_ nl) ?_
    · exact (((Uncoloured.col o (by decide)).append (.clean (by unfold NoEsc; decide))).append (.col o (by decide))).append h
    · simp [framed]
  | a :: b :: l, _, .cons (a' := a') h (.cons h2 h3) => by
    unfold printDiffLines
    refine Uncoloured.cast ((printIndented_plain (m' := [] ++ p!"│ " ++ [] ++ a') ?_ nl).append (printDiffLines_plain (.cons h2 h3))) ?_
    · exact (((Uncoloured.col o (by decide)).append (.clean (by unfold NoEsc; decide))).append (.col o (by decide))).append h
    · simp [framed]

theorem all_nil_iff {l l' : List Str} (h : AllUncoloured l l') : l' = [] ↔ l.isEmpty = true := by
  cases h <;> simp

theorem diffTexts_nil {udiff : List Bytes → List Bytes → List Bytes} {ds : List (Str × Option Bytes × Option Bytes)} {ts : List Str}
    (h : DiffTexts udiff ds ts) : ts = [] ↔ ds.length = 0 := by
  cases h <;> simp

/-! ### C82 -/

section
variable {udiff : List Bytes → List Bytes → List Bytes} {repr : Val → Str}

/-- C82: if nothing goes wrong while it is printed, the summary is as documented (see `Summary`): colours, and only these, come in addition.
(Texts that contain escape characters themselves are another matter, see `C82_escapes_refuted`.) -/
theorem C82_text (o : Options) (level : Nat) (t : Title) (r : Report) (hne : NoEscapes repr t r)
    (h : (printOperation udiff repr o level t r).2 = none) :
    ∃ lines, Summary udiff repr o t r lines ∧ Uncoloured (printOperation udiff repr o level t r).1 (layout o level lines) := by
  have htitle : ∀ c : Str, Uncoloured c [] → Uncoloured (p!"\r" ++ printTitle o level t c) (13 :: (pad o level ++ titleText o t ++ [10])) :=
    fun c hc => .char 13 (by decide) (printTitle_plain hc nl hne.opName hne.description hne.name)
  have hcol : Uncoloured (if r.result.success = true then if r.result.changed = true then col o p!"1;32" else col o p!"1;90" else col o p!"1;31") [] := by
    split
    · split <;> exact .col o (by decide)
    · exact .col o (by decide)
  have ht := htitle _ hcol
  revert h
  unfold printOperation
  dsimp only
  generalize p!"\r" ++ printTitle o level t (if r.result.success = true then if r.result.changed = true then col o p!"1;32" else col o p!"1;90" else col o p!"1;31") = title at ht ⊢
  cases hs : r.result.success with
  | false =>
    intro _
    simp only [Bool.not_false, if_true]
    refine ⟨_, .failed hs, Uncoloured.cast (ht.append (printIndented_plain (m' := p!" " ++ [] ++ p!"└" ++ [] ++ p!" " ++ ([] ++ messageText r.result.failureMessage ++ [])) ?_ nl)) ?_⟩
    · have hm : NoEsc (messageText r.result.failureMessage) := by
        cases hm : r.result.failureMessage with
        | none => unfold NoEsc messageText; decide
        | some m => exact hne.message m hm
      plain_text
    · simp [layout]
  | true =>
    simp only [Bool.not_true, Bool.false_eq_true, if_false]
    cases hc : o.changes with
    | false =>
      intro _
      simp only [Bool.not_false, if_true]
      refine ⟨_, .quiet hs hc, Uncoloured.cast ht ?_⟩
      simp [layout]
    | true =>
      simp only [Bool.not_true, Bool.false_eq_true, if_false]
      cases hi : stateInfos o repr r.result.initial r.result.final with
      | error e => intro h; cases h
      | ok infos =>
        dsimp only
        obtain ⟨ts, hts, hst⟩ := stateInfos_plain hne.initial hne.final hi
        have hchanges : ∀ (b : Str), NoEsc b →
            Uncoloured (if infos.isEmpty = true then [] else printIndented o level (col o p!"90" ++ b ++ col o p!"" ++ p!" "
                ++ Py.join (col o p!"90" ++ p!"," ++ col o p!"" ++ p!" ") infos))
              ((if ts = [] then [] else [b ++ p!" " ++ Py.join p!", " ts]).map fun l => pad o level ++ l ++ [10]).flatten := by
          intro b hb
          by_cases hn : infos.isEmpty = true
          · rw [if_pos hn, if_pos ((all_nil_iff hts).mpr hn)]
            exact .nil
          · rw [if_neg hn, if_neg fun e => hn ((all_nil_iff hts).mp e)]
            refine Uncoloured.cast (printIndented_plain (m' := [] ++ b ++ [] ++ p!" " ++ Py.join ([] ++ p!"," ++ [] ++ p!" ") ts) ?_ nl) ?_
            · refine Uncoloured.append ?_ (Uncoloured.join ?_ hts)
              · plain_text
              · plain_text
            · simp
        cases hd : o.diff with
        | false =>
          intro _
          simp only [Bool.false_eq_true, if_false, if_true]
          refine ⟨_, .changes hs hc (ds := []) hst (by rw [hd]; rfl), Uncoloured.cast (ht.append (hchanges p!"└" (by unfold NoEsc; decide))) ?_⟩
          simp only [layout, if_true, framed, List.append_nil, List.map_cons, List.flatten_cons]
          rfl
        | true =>
          simp only [if_true]
          cases hdl : diffLines udiff r.diffs with
          | error e => intro h; cases h
          | ok lines =>
            intro _
            dsimp only
            obtain ⟨ds, hds, hdt⟩ := diffLines_plain hne.files hdl
            refine ⟨_, .changes hs hc (ds := ds) hst (by rw [hd]; exact hdt), Uncoloured.cast ((ht.append (hchanges _ ?_)).append (printDiffLines_plain hds)) ?_⟩
            · split <;> (unfold NoEsc; decide)
            · have hbox : ((if r.diffs.length = 0 then p!"└" else p!"├") ++ p!" " : Str) = if ds = [] then p!"└ " else p!"├ " := by
                by_cases h0 : r.diffs.length = 0
                · rw [if_pos h0, if_pos ((diffTexts_nil hdt).mpr h0)]; rfl
                · rw [if_neg h0, if_neg fun e => h0 ((diffTexts_nil hdt).mp e)]; rfl
              rw [hbox]
              simp only [layout, List.map_cons, List.flatten_cons, List.map_append, List.flatten_append]
              simp

/-- C82: a failed operation prints its title and the message, and nothing else, whatever the options are. -/
theorem C82_failed (o : Options) (level : Nat) (t : Title) (r : Report) (hne : NoEscapes repr t r) (h : r.result.success = false) :
    (printOperation udiff repr o level t r).2 = none
    ∧ Uncoloured (printOperation udiff repr o level t r).1 (layout o level [titleText o t, p!" └ " ++ messageText r.result.failureMessage]) := by
  have h2 : (printOperation udiff repr o level t r).2 = none := by simp [printOperation, h]
  refine ⟨h2, ?_⟩
  obtain ⟨lines, hs, hu⟩ := C82_text o level t r hne h2
  cases hs with
  | failed => exact hu
  | quiet h' => rw [h] at h'; cases h'
  | changes h' => rw [h] at h'; cases h'

/-- C82: with --no-changes, a successful operation only prints its title. -/
theorem C82_no_changes (o : Options) (level : Nat) (t : Title) (r : Report) (hne : NoEscapes repr t r) (h : r.result.success = true) (hc : o.changes = false) :
    (printOperation udiff repr o level t r).2 = none ∧ Uncoloured (printOperation udiff repr o level t r).1 (layout o level [titleText o t]) := by
  have h2 : (printOperation udiff repr o level t r).2 = none := by simp [printOperation, h, hc]
  refine ⟨h2, ?_⟩
  obtain ⟨lines, hs, hu⟩ := C82_text o level t r hne h2
  cases hs with
  | failed h' => rw [h] at h'; cases h'
  | quiet => exact hu
  | changes _ hc' => rw [hc] at hc'; cases hc'

theorem stateTexts_mem {verbose : Nat} {initial f : Script.Dict} {ts : List Str} (h : StateTexts verbose repr initial f ts) {k : Str} {v u : Val}
    (hm : (k, v) ∈ f) (hv : v ≠ .null) (hu : initial.get k = some u) :
    (u.eq v = true ∧ (verbose ≠ 0 → (k ++ p!": " ++ toStr repr u) ∈ ts)) ∨ (u.eq v = false ∧ ∃ x ∈ ts, ChangeText (verbose == 0) repr k u v x) := by
  induction h with
  | nil => cases hm
  | unset _ ih =>
    rcases List.mem_cons.mp hm with h | h
    · cases h; exact absurd rfl hv
    · exact ih h
  | unchanged hv' hu' he hz _ ih =>
    rcases List.mem_cons.mp hm with h | h
    · cases h
      rw [hu] at hu'; cases hu'
      exact .inl ⟨he, fun hn => absurd hz hn⟩
    · exact ih h
  | still hv' hu' he hz _ ih =>
    rcases List.mem_cons.mp hm with h | h
    · cases h
      rw [hu] at hu'; cases hu'
      exact .inl ⟨he, fun _ => by simp⟩
    · rcases ih h with ⟨h1, h2⟩ | ⟨h1, x, h2, h3⟩
      · exact .inl ⟨h1, fun hn => List.mem_cons_of_mem _ (h2 hn)⟩
      · exact .inr ⟨h1, x, List.mem_cons_of_mem _ h2, h3⟩
  | changed hv' hu' he ht _ ih =>
    rcases List.mem_cons.mp hm with h | h
    · cases h
      rw [hu] at hu'; cases hu'
      exact .inr ⟨he, _, by simp, ht⟩
    · rcases ih h with ⟨h1, h2⟩ | ⟨h1, x, h2, h3⟩
      · exact .inl ⟨h1, fun hn => List.mem_cons_of_mem _ (h2 hn)⟩
      · exact .inr ⟨h1, x, List.mem_cons_of_mem _ h2, h3⟩

theorem infix_join {sep x : Str} : ∀ {l : List Str}, x ∈ l → x <:+: Py.join sep l
  | [a], h => by
    simp only [List.mem_singleton] at h
    subst h; exact List.infix_rfl
  | a :: b :: l, h => by
    unfold Py.join
    rcases List.mem_cons.mp h with rfl | h
    · exact ⟨[], sep ++ Py.join sep (b :: l), by simp⟩
    · exact (infix_join (sep := sep) h).trans ⟨a ++ sep, [], by simp⟩

theorem infix_layout {o : Options} {level : Nat} {lines : List Str} {l : Str} (h : l ∈ lines) : l <:+: layout o level lines := by
  obtain ⟨a, b, rfl⟩ := List.append_of_mem h
  refine ⟨13 :: (a.map fun l => pad o level ++ l ++ [10]).flatten ++ pad o level, 10 :: (b.map fun l => pad o level ++ l ++ [10]).flatten, ?_⟩
  simp [layout]

theorem infix_state {o : Options} {level : Nat} {t : Title} {ts ds : List Str} {x : Str} (h : x ∈ ts) :
    x <:+: layout o level (titleText o t :: ((if ts = [] then [] else [(if ds = [] then p!"└ " else p!"├ ") ++ Py.join p!", " ts]) ++ framed ds)) := by
  have hne : ts ≠ [] := by intro e; rw [e] at h; cases h
  rw [if_neg hne]
  have h1 : Py.join p!", " ts <:+: (if ds = [] then p!"└ " else p!"├ ") ++ Py.join p!", " ts := ⟨_, [], by rw [List.append_nil]⟩
  exact ((infix_join (sep := p!", ") h).trans h1).trans (infix_layout (by simp))

/-- C82: the summary of a successful operation shows every value that changes, unless it becomes None: the key, the old value if there was one, and
the new one. -/
theorem C82_changes_shown_partial (o : Options) (level : Nat) (t : Title) (r : Report) (hne : NoEscapes repr t r)
    (h : (printOperation udiff repr o level t r).2 = none) (hs : r.result.success = true) (hc : o.changes = true)
    (k : Str) (u v : Val) (hk : (k, v) ∈ r.result.final) (hu : r.result.initial.get k = some u) (hv : v ≠ .null) (hd : u.eq v = false) :
    ∃ shown text, Uncoloured (printOperation udiff repr o level t r).1 text ∧ ChangeText (o.verbose == 0) repr k u v shown ∧ shown <:+: text := by
  obtain ⟨lines, hsum, hun⟩ := C82_text o level t r hne h
  cases hsum with
  | failed h' => rw [hs] at h'; cases h'
  | quiet _ hc' => rw [hc] at hc'; cases hc'
  | changes _ _ hts _ =>
    rcases stateTexts_mem hts hk hv hu with ⟨h1, _⟩ | ⟨_, x, hx, hct⟩
    · rw [hd] at h1; cases h1
    · exact ⟨x, _, hun, hct, infix_state hx⟩

/-- C82: verbose output shows every value that is not None and whether it changes, and nothing is cut. -/
theorem C82_verbose (o : Options) (level : Nat) (t : Title) (r : Report) (hne : NoEscapes repr t r)
    (h : (printOperation udiff repr o level t r).2 = none) (hs : r.result.success = true) (hc : o.changes = true) (hverb : 0 < o.verbose)
    (k : Str) (u v : Val) (hk : (k, v) ∈ r.result.final) (hu : r.result.initial.get k = some u) (hv : v ≠ .null) :
    ∃ text, Uncoloured (printOperation udiff repr o level t r).1 text ∧
      (if u.eq v then k ++ p!": " ++ toStr repr u
       else if u.isNull then k ++ p!": " ++ toStr repr v
       else k ++ p!": " ++ toStr repr u ++ p!" → " ++ toStr repr v) <:+: text := by
  obtain ⟨lines, hsum, hun⟩ := C82_text o level t r hne h
  have hb : (o.verbose == 0) = false := by simp; omega
  cases hsum with
  | failed h' => rw [hs] at h'; cases h'
  | quiet _ hc' => rw [hc] at hc'; cases hc'
  | changes _ _ hts _ =>
    refine ⟨_, hun, ?_⟩
    rcases stateTexts_mem hts hk hv hu with ⟨h1, h2⟩ | ⟨h1, x, hx, hct⟩
    · rw [if_pos h1]
      exact infix_state (h2 (by omega))
    · rw [if_neg (by simp [h1])]
      rw [hb] at hct
      cases hct with
      | set a b =>
        rw [if_pos (show Val.null.isNull = true from rfl)]
        simp only [Cut, Bool.false_eq_true, false_and, if_false] at a b
        subst a; subst b
        exact infix_state hx
      | changed hu0 a b c =>
        rw [if_neg fun e => hu0 (isNull_iff.mp e)]
        simp only [Cut, Bool.false_eq_true, false_and, if_false] at a b c
        subst a; subst b; subst c
        exact infix_state hx

theorem Cut.length {n : Nat} (hn : 1 ≤ n) {s out : Str} (h : Cut true n s out) : out.length ≤ n := by
  unfold Cut at h
  split at h
  · rw [h, List.length_append, List.length_take]
    have : (p!"…" : Str).length = 1 := rfl
    omega
  · rename_i hc
    rw [h]
    simp only [true_and] at hc
    omega

/-- C82: without -v, no change takes more than 35 columns. -/
theorem C82_brief (k : Str) (u v : Val) (shown : Str) (h : ChangeText true repr k u v shown) : shown.length ≤ 35 := by
  cases h with
  | set a b =>
    have h1 := a.length (by decide)
    have h2 := b.length (by decide)
    simp only [List.length_append, List.length_cons, List.length_nil]
    omega
  | changed _ a b c =>
    have h1 := a.length (by decide)
    have h2 := b.length (by decide)
    have h3 := c.length (by decide)
    simp only [List.length_append, List.length_cons, List.length_nil]
    omega

theorem stateTexts_nil {initial f : Script.Dict} {ts : List Str} (h : StateTexts 0 repr initial f ts)
    (hsame : ∀ k v u, (k, v) ∈ f → v ≠ .null → initial.get k = some u → u.eq v = true) : ts = [] := by
  induction h with
  | nil => rfl
  | unset _ ih => exact ih fun k v u hm => hsame k v u (by simp [hm])
  | unchanged _ _ _ _ _ ih => exact ih fun k v u hm => hsame k v u (by simp [hm])
  | still _ _ _ hz _ _ => exact absurd rfl hz
  | changed hv hu he _ _ _ =>
    have := hsame _ _ _ (by simp) hv hu
    rw [this] at he; cases he

/-- C82: without -v, and without diffs, an operation for which no value changes only prints its title. -/
theorem C82_unchanged (o : Options) (level : Nat) (t : Title) (r : Report) (hne : NoEscapes repr t r)
    (h : (printOperation udiff repr o level t r).2 = none) (hs : r.result.success = true) (hverb : o.verbose = 0) (hdiff : o.diff = false ∨ r.diffs = [])
    (hsame : ∀ k v u, (k, v) ∈ r.result.final → v ≠ .null → r.result.initial.get k = some u → u.eq v = true) :
    Uncoloured (printOperation udiff repr o level t r).1 (layout o level [titleText o t]) := by
  obtain ⟨lines, hsum, hun⟩ := C82_text o level t r hne h
  cases hsum with
  | failed h' => rw [hs] at h'; cases h'
  | quiet _ hc' => exact hun
  | changes _ _ hts hds =>
    rw [hverb] at hts
    have := stateTexts_nil hts hsame
    subst this
    have hd : ∀ ds : List Str, (if o.diff = true then DiffTexts udiff r.diffs ds else ds = []) → ds = [] := by
      intro ds hds
      rcases hdiff with hd | hd
      · rw [hd] at hds; exact hds
      · rw [hd] at hds
        split at hds
        · cases hds; rfl
        · exact hds
    have := hd _ hds
    subst this
    exact hun

theorem framed_mem {l : Str} : ∀ {ls : List Str}, l ∈ ls → ∃ a, a ∈ framed ls ∧ l <:+: a
  | [x], h => by
    simp only [List.mem_singleton] at h
    subst h
    exact ⟨p!"└ " ++ l, by simp [framed], ⟨_, [], by rw [List.append_nil]⟩⟩
  | x :: y :: ls, h => by
    rcases List.mem_cons.mp h with rfl | h
    · exact ⟨p!"│ " ++ l, by simp [framed], ⟨_, [], by rw [List.append_nil]⟩⟩
    · obtain ⟨a, ha, hl⟩ := framed_mem h
      exact ⟨a, by rw [framed]; exact List.mem_cons_of_mem _ ha; simp, hl⟩

theorem diffTexts_mem {ds : List (Str × Option Bytes × Option Bytes)} {ts : List Str} (h : DiffTexts udiff ds ts) {file : Str} {old new : Option Bytes}
    (hm : (file, old, new) ∈ ds) : (actionOf old new ++ p!": " ++ file) ∈ ts ∧ ∀ l ∈ (udiff (diffInput old) (diffInput new)).drop 2, decodeEscapeLog l ∈ ts := by
  induction h with
  | nil => cases hm
  | cons ht _ ih =>
    rcases List.mem_cons.mp hm with h | h
    · cases h
      subst ht
      exact ⟨by simp, fun l hl => by
        simp only [List.mem_append, List.mem_map]
        exact .inl (.inr ⟨l, hl, rfl⟩)⟩
    · obtain ⟨h1, h2⟩ := ih h
      exact ⟨List.mem_append_right _ h1, fun l hl => List.mem_append_right _ (h2 l hl)⟩

theorem infix_framed {o : Options} {level : Nat} {title l : Str} {more ds : List Str} (hl : l ∈ ds) : l <:+: layout o level (title :: (more ++ framed ds)) := by
  obtain ⟨a, ha, hi⟩ := framed_mem hl
  exact hi.trans (infix_layout (List.mem_cons_of_mem _ (List.mem_append_right _ ha)))

/-- C82: with --diff, the summary says for each file whether it is created, deleted or modified, and shows every line of its diff. -/
theorem C82_diffs (o : Options) (level : Nat) (t : Title) (r : Report) (hne : NoEscapes repr t r)
    (h : (printOperation udiff repr o level t r).2 = none) (hs : r.result.success = true) (hc : o.changes = true) (hd : o.diff = true)
    (file : Str) (old new : Option Bytes) (hm : (file, old, new) ∈ r.diffs) :
    ∃ text, Uncoloured (printOperation udiff repr o level t r).1 text ∧ (actionOf old new ++ p!": " ++ file) <:+: text
      ∧ ∀ l ∈ (udiff (diffInput old) (diffInput new)).drop 2, decodeEscapeLog l <:+: text := by
  obtain ⟨lines, hsum, hun⟩ := C82_text o level t r hne h
  cases hsum with
  | failed h' => rw [hs] at h'; cases h'
  | quiet _ hc' => rw [hc] at hc'; cases hc'
  | changes _ _ _ hds =>
    rw [hd] at hds
    obtain ⟨h1, h2⟩ := diffTexts_mem hds hm
    exact ⟨_, hun, infix_framed h1, fun l hl => infix_framed (h2 l hl)⟩

/-- C82: without --diff, nothing of the content of files is printed: whatever was recorded, the output is the same. -/
theorem C82_no_diffs (o : Options) (level : Int) (t : Title) (result : OpResult) (ds : List (Str × Option Bytes × Option Bytes)) (hd : o.diff = false) :
    printOperation udiff repr o level t { result, diffs := ds } = printOperation udiff repr o level t { result, diffs := [] } := by
  unfold printOperation
  simp [hd]

/-- C82: the title that is printed when the operation starts is covered by the one that is printed when it ends: it has the same text, and the cursor
goes back to its start first. (With --debug, both are printed.) -/
theorem C82_early (o : Options) (level : Nat) (t : Title) (r : Report) (hne : NoEscapes repr t r) (hdbg : o.debug = false) :
    Uncoloured (printEarly o level t) (pad o level ++ titleText o t)
    ∧ ∃ first rest, (printOperation udiff repr o level t r).1 = 13 :: (first ++ rest) ∧ Uncoloured first (pad o level ++ titleText o t ++ [10]) := by
  refine ⟨?_, ?_⟩
  · unfold printEarly
    rw [hdbg]
    exact Uncoloured.cast (printTitle_plain (.col o (by decide)) (by unfold NoEsc; decide) hne.opName hne.description hne.name) (by simp)
  · have hcol : Uncoloured (if r.result.success = true then if r.result.changed = true then col o p!"1;32" else col o p!"1;90" else col o p!"1;31") [] := by
      split
      · split <;> exact .col o (by decide)
      · exact .col o (by decide)
    have ht := printTitle_plain (o := o) (level := level) hcol nl hne.opName hne.description hne.name
    revert ht
    unfold printOperation
    dsimp only
    generalize printTitle o level t (if r.result.success = true then if r.result.changed = true then col o p!"1;32" else col o p!"1;90" else col o p!"1;31") = title
    intro ht
    split
    · exact ⟨title, _, rfl, ht⟩
    · split
      · exact ⟨title, [], by simp, ht⟩
      · split
        · exact ⟨title, [], by simp, ht⟩
        · split
          · split
            · exact ⟨title, _, rfl, ht⟩
            · exact ⟨title, _, by simp only [List.append_assoc]; rfl, ht⟩
          · exact ⟨title, _, rfl, ht⟩

theorem applyAll_ok : ∀ {l : List Str}, (∀ x ∈ l, x ≠ []) → ∃ l', applyAll l = .ok l'
  | [], _ => ⟨[], rfl⟩
  | x :: l, h => by
    obtain ⟨l', hl⟩ := applyAll_ok fun y hy => h y (List.mem_cons_of_mem _ hy)
    cases x with
    | nil => exact absurd rfl (h [] (by simp))
    | cons c x =>
      refine ⟨(ansi (if c = 43 then p!"32" else if c = 45 then p!"31" else if c = 64 then p!"34" else p!"90") ++ c :: x ++ ansi p!"") :: l', ?_⟩
      unfold applyAll applyColor
      dsimp only
      rw [hl]

theorem charShown_nonempty {c : Nat} {t : Str} (h : CharShown c t) : t ≠ [] := by
  cases h <;> simp

theorem log_nonempty {b : Bytes} (hb : b ≠ []) : decodeEscapeLog b ≠ [] := by
  intro he
  have hs := C75_escapes b
  rw [he] at hs
  have key : ∀ {b : Bytes} {s : Str}, Shown b s → s = [] → b = [] := by
    intro b s h
    cases h with
    | nil => intro _; rfl
    | char c e r t s _ hc _ => intro he; exact absurd (List.append_eq_nil_iff.mp he).1 (charShown_nonempty hc)
    | byte => intro he; simp at he
  exact hb (key hs rfl)

theorem stateInfos_ok {o : Options} {initial : Script.Dict} : ∀ {f : Script.Dict}, (∃ infos, stateInfos o repr initial f = .ok infos) ↔ printable initial f = true
  | [] => ⟨fun _ => rfl, fun _ => ⟨[], rfl⟩⟩
  | (k, v) :: f => by
    have ih := stateInfos_ok (o := o) (initial := initial) (f := f)
    unfold printable at ih ⊢
    rw [List.all_cons, Bool.and_eq_true, ← ih, stateInfos]
    by_cases hn : v.isNull = true
    · simp [hn]
    · simp only [hn, if_false, Bool.or_false, Bool.false_eq_true]
      cases hg : initial.get k with
      | none => simp
      | some u =>
        simp only [Option.isSome_some, true_and]
        cases hr : stateInfos o repr initial f with
        | error e => simp
        | ok infos =>
          simp only
          cases stateInfo o repr k u v <;> simp

/-- C82: printing the changes of a successful operation goes wrong exactly if the final state has a value for which there is no initial value, which
is when `success` raises in this model. (The lines of a diff are never empty.) -/
theorem C82_completes (o : Options) (level : Nat) (t : Title) (r : Report) (hs : r.result.success = true) (hc : o.changes = true)
    (hud : ∀ a b, ∀ l ∈ (udiff a b).drop 2, l ≠ []) :
    (printOperation udiff repr o level t r).2 = none ↔ printable r.result.initial r.result.final = true := by
  rw [← stateInfos_ok (o := o) (repr := repr)]
  unfold printOperation
  dsimp only
  rw [hs, hc]
  simp only [Bool.not_true, Bool.false_eq_true, if_false]
  cases hi : stateInfos o repr r.result.initial r.result.final with
  | error e => simp
  | ok infos =>
    simp only [Except.ok.injEq, exists_eq', iff_true]
    have hd : ∃ lines, diffLines udiff r.diffs = .ok lines := by
      generalize r.diffs = ds
      induction ds with
      | nil => exact ⟨[], rfl⟩
      | cons d ds ih =>
        obtain ⟨file, old, new⟩ := d
        obtain ⟨more, hm⟩ := ih
        obtain ⟨l', hl⟩ := applyAll_ok (l := ((udiff (diffInput old) (diffInput new)).drop 2).map decodeEscapeLog) (by
          intro x hx
          obtain ⟨b, hb, rfl⟩ := List.mem_map.mp hx
          exact log_nonempty (hud _ _ b hb))
        unfold diffLines diffText
        dsimp only
        rw [if_pos rfl, hl]
        dsimp only
        rw [hm]
        exact ⟨_, rfl⟩
    obtain ⟨lines, hl⟩ := hd
    rw [hl]
    cases o.diff <;> rfl

theorem col_off {o : Options} (h : o.noColor = true) (c : Str) : col o c = [] := by simp [col, useColor, h]

theorem noEsc_prefix {o : Options} (h : o.noColor = true) (level : Nat) : NoEsc (prefixOf o level) := by
  unfold prefixOf useColor
  rw [h]
  simp only [Bool.not_true, Bool.false_eq_true, if_false, C71_indentation]
  unfold NoEsc; simp

theorem noEsc_join {sep : Str} (hs : NoEsc sep) : ∀ {l : List Str}, (∀ x ∈ l, NoEsc x) → NoEsc (Py.join sep l)
  | [], _ => by unfold NoEsc Py.join; simp
  | [a], h => h a (by simp)
  | a :: b :: l, h => by
    unfold Py.join
    exact noEsc_append.mpr ⟨noEsc_append.mpr ⟨h a (by simp), hs⟩, noEsc_join hs fun x hx => h x (by simp at hx ⊢; exact .inr hx)⟩

theorem noEsc_indented {o : Options} (h : o.noColor = true) (level : Nat) {m : Str} (hm : NoEsc m) : NoEsc (printIndented o level m) := by
  unfold printIndented
  exact noEsc_append.mpr ⟨noEsc_append.mpr ⟨noEsc_prefix h level, hm⟩, nl⟩

theorem noEsc_nil : NoEsc [] := by unfold NoEsc; simp

theorem noEsc_stateInfo {o : Options} (h : o.noColor = true) {k e : Str} {u v : Val} (hk : NoEsc k) (hu : NoEsc (toStr repr u)) (hv : NoEsc (toStr repr v))
    (he : stateInfo o repr k u v = some e) : NoEsc e := by
  unfold stateInfo at he
  simp only [col_off h, List.nil_append, List.append_nil] at he
  have ck := (cut_of (n := 12) (m := 12) rfl (by decide) o k).noEsc hk
  have cu := (cut_of (n := 9) (m := 9) rfl (by decide) o (toStr repr u)).noEsc hu
  have cv := (cut_of (n := 9) (m := 9) rfl (by decide) o (toStr repr v)).noEsc hv
  have cv' := (cut_of (n := 21) (m := 9 + 3 + 9) rfl (by decide) o (toStr repr v)).noEsc hv
  have h1 : NoEsc p!": " := by unfold NoEsc; decide
  have h2 : NoEsc p!" → " := by unfold NoEsc; decide
  split at he
  · split at he
    · cases he; exact noEsc_append.mpr ⟨noEsc_append.mpr ⟨ck, h1⟩, cu⟩
    · cases he
  · split at he
    · cases he; exact noEsc_append.mpr ⟨noEsc_append.mpr ⟨ck, h1⟩, cv'⟩
    · cases he; exact noEsc_append.mpr ⟨noEsc_append.mpr ⟨noEsc_append.mpr ⟨noEsc_append.mpr ⟨ck, h1⟩, cu⟩, h2⟩, cv⟩

theorem noEsc_stateInfos {o : Options} (h : o.noColor = true) {initial : Script.Dict} (hi : ∀ k v, (k, v) ∈ initial → NoEsc (toStr repr v)) :
    ∀ {f : Script.Dict} {infos : List Str}, (∀ k v, (k, v) ∈ f → NoEsc k ∧ NoEsc (toStr repr v)) → stateInfos o repr initial f = .ok infos →
      ∀ x ∈ infos, NoEsc x
  | [], infos, _, he => by cases he; intro x hx; cases hx
  | (k, v) :: f, infos, hf, he => by
    unfold stateInfos at he
    have hf' : ∀ k v, (k, v) ∈ f → NoEsc k ∧ NoEsc (toStr repr v) := fun k v hm => hf k v (by simp [hm])
    split at he
    · exact noEsc_stateInfos h hi hf' he
    · cases hg : initial.get k with
      | none => rw [hg] at he; cases he
      | some u =>
        rw [hg] at he
        dsimp only at he
        cases hr : stateInfos o repr initial f with
        | error e => rw [hr] at he; cases he
        | ok rest =>
          rw [hr] at he
          dsimp only at he
          have ih := noEsc_stateInfos h hi hf' hr
          cases hs : stateInfo o repr k u v with
          | none => rw [hs] at he; cases he; exact ih
          | some e =>
            rw [hs] at he; cases he
            intro x hx
            rcases List.mem_cons.mp hx with rfl | hx
            · exact noEsc_stateInfo h (hf k v (by simp)).1 (hi k u (get_mem hg)) (hf k v (by simp)).2 hs
            · exact ih x hx

/-- C82: with --no-color, if NO_COLOR is set, or if the output is not a terminal, there are no escape sequences, if no diffs are shown. -/
theorem C82_no_color_partial (o0 : Options) (noColorSet tty : Bool) (hoff : o0.noColor = true ∨ noColorSet = true ∨ tty = false) (level : Nat) (t : Title)
    (r : Report) (hne : NoEscapes repr t r) (hd : o0.diff = false ∨ r.diffs = []) :
    27 ∉ (printOperation udiff repr (effective o0 noColorSet tty) level t r).1 := by
  have hoff' : (effective o0 noColorSet tty).noColor = true := by
    rcases hoff with h | h | h <;> simp [effective, h]
  have hd' : (effective o0 noColorSet tty).diff = false ∨ r.diffs = [] := hd
  generalize effective o0 noColorSet tty = o at hoff' hd' ⊢
  show NoEsc _
  have ht : NoEsc (p!"\r" ++ printTitle o level t []) := by
    refine noEsc_append.mpr ⟨by unfold NoEsc; decide, ?_⟩
    unfold printTitle
    refine noEsc_indented hoff' level ?_
    simp only [col_off hoff', List.nil_append, List.append_nil]
    refine noEsc_append.mpr ⟨noEsc_append.mpr ⟨noEsc_append.mpr ⟨noEsc_append.mpr ⟨hne.opName, ?_⟩, by unfold NoEsc; decide⟩, hne.description⟩, ?_⟩
    · split <;> (unfold NoEsc; decide)
    · cases hn : t.name with
      | none => exact noEsc_nil
      | some n =>
        simp only [nameIfGiven, col_off hoff', List.nil_append, List.append_nil]
        exact noEsc_append.mpr ⟨by unfold NoEsc; decide, noEsc_append.mpr ⟨noEsc_append.mpr ⟨by unfold NoEsc; decide, hne.name n hn⟩, by unfold NoEsc; decide⟩⟩
  unfold printOperation
  simp only [col_off hoff', ite_self, List.nil_append, List.append_nil]
  have hmsg : NoEsc (messageText r.result.failureMessage) := by
    cases hm : r.result.failureMessage with
    | none => unfold NoEsc messageText; decide
    | some m => exact hne.message m hm
  split
  · refine noEsc_append.mpr ⟨ht, noEsc_indented hoff' level ?_⟩
    exact noEsc_append.mpr ⟨by unfold NoEsc; decide, hmsg⟩
  · split
    · exact ht
    · cases hi : stateInfos o repr r.result.initial r.result.final with
      | error e => exact ht
      | ok infos =>
        dsimp only
        have hx := noEsc_stateInfos hoff' hne.initial hne.final hi
        have hch : ∀ b : Str, NoEsc b → NoEsc (if infos.isEmpty = true then [] else printIndented o level (b ++ p!" " ++ Py.join (p!"," ++ p!" ") infos)) := by
          intro b hb
          split
          · exact noEsc_nil
          · exact noEsc_indented hoff' level (noEsc_append.mpr ⟨noEsc_append.mpr ⟨hb, by unfold NoEsc; decide⟩, noEsc_join (by unfold NoEsc; decide) hx⟩)
        have hb : ∀ n : Nat, NoEsc (if n = 0 then p!"└" else p!"├") := by
          intro n
          split <;> (unfold NoEsc; decide)
        split
        · rename_i hdt
          rcases hd' with hd' | hd'
          · rw [hd'] at hdt; cases hdt
          · rw [hd']
            simp only [diffLines, printDiffLines, List.append_nil]
            exact noEsc_append.mpr ⟨ht, hch _ (hb _)⟩
        · exact noEsc_append.mpr ⟨ht, hch _ (hb _)⟩

end

/-! ### Where it is not as one would expect -/

namespace Example

/-- A unified diff that replaces everything. -/
def udiff (a b : List Bytes) : List Bytes := [b!"--- ", b!"+++ ", b!"@@ @@"] ++ a.map (b!"-" ++ ·) ++ b.map (b!"+" ++ ·)

def repr : Val → Str := fun _ => p!"[..]"

def title : Title := { opName := p!"file", description := p!"/etc/motd", name := some p!"greeting" }

/-- A file of mode 644 that belongs to root is to have the mode 600 and other content. -/
def report : Report where
  result := { success := true, changed := true, initial := [(p!"exists", .bool true), (p!"mode", .str p!"644"), (p!"owner", .str p!"root"), (p!"sha512", .bytes b!"abcdef")],
              final := [(p!"exists", .bool true), (p!"mode", .str p!"600"), (p!"owner", .str p!"root"), (p!"sha512", .bytes b!"ghijkl")] }
  diffs := [(p!"/etc/motd", some b!"a", some b!"b")]

/-- A text without its escape sequences. -/
def strip : Bool → Str → Str
  | _, [] => []
  | true, c :: s => strip (c != 109) s
  | false, c :: s => if c = 27 then strip true s else c :: strip false s

end Example

/-- What is printed for it without colours, and with colours and diffs. -/
example : printOperation Example.udiff Example.repr { noColor := true } 1 Example.title Example.report
    = (p!"\r  file /etc/motd (greeting)\n  └ mode: 644 → 600, sha512: 61626364… → 6768696a…\n", none) := by decide +kernel

example : Example.strip false (printOperation Example.udiff Example.repr { diff := true, verbose := 1, dry := true } 1 Example.title Example.report).1
    = (p!"\r│ file (dry) /etc/motd (greeting)\n│ ├ exists: True, mode: 644 → 600, owner: root, sha512: 616263646566 → 6768696a6b6c\n"
      ++ p!"│ │ ───────────────────\n│ │ modified: /etc/motd\n│ │ ───────────────────\n│ │ @@ @@\n│ │ -a\n│ └ +b\n") := by
  decide +kernel

theorem Example.no_escapes : NoEscapes Example.repr Example.title Example.report := by
  refine ⟨by unfold NoEsc; decide, by unfold NoEsc; decide, ?_, ?_, ?_, ?_, ?_⟩
  · intro n h; cases h; unfold NoEsc; decide
  · intro m h; cases h
  · intro k v h
    simp only [Example.report, List.mem_cons, Prod.mk.injEq, List.not_mem_nil, or_false] at h
    rcases h with ⟨_, rfl⟩ | ⟨_, rfl⟩ | ⟨_, rfl⟩ | ⟨_, rfl⟩ <;> (unfold NoEsc; decide)
  · intro k v h
    simp only [Example.report, List.mem_cons, Prod.mk.injEq, List.not_mem_nil, or_false] at h
    rcases h with ⟨rfl, rfl⟩ | ⟨rfl, rfl⟩ | ⟨rfl, rfl⟩ | ⟨rfl, rfl⟩ <;> exact ⟨by unfold NoEsc; decide, by unfold NoEsc; decide⟩
  · intro d h
    simp only [Example.report, List.mem_cons, List.not_mem_nil, or_false] at h
    subst h; unfold NoEsc; decide

example : ∀ a b, ∀ l ∈ (Example.udiff a b).drop 2, l ≠ [] := by
  intro a b l hl
  simp only [Example.udiff, List.cons_append, List.nil_append, List.drop_succ_cons, List.drop_zero, List.mem_cons, List.mem_append, List.mem_map] at hl
  rcases hl with rfl | ⟨x, _, rfl⟩ | ⟨x, _, rfl⟩ <;> simp

/-- C82 is false for diffs: they are coloured although --no-color is given. -/
theorem C82_no_color_refuted : NoEscapes Example.repr Example.title Example.report
    ∧ 27 ∈ (printOperation Example.udiff Example.repr (effective { noColor := true, diff := true } false true) 0 Example.title Example.report).1 :=
  ⟨Example.no_escapes, by decide +kernel⟩

/-- C82 is false for values that become None: a successful operation that has changed something may print nothing but its title. -/
theorem C82_changes_shown_refuted : ∃ i f : Script.Dict, i.eq f = false ∧
    printOperation Example.udiff Example.repr { noColor := true } 0 Example.title { result := { success := true, changed := true, initial := i, final := f }, diffs := [] }
      = (p!"\rfile /etc/motd (greeting)\n", none) :=
  ⟨[(p!"running", .bool true)], [(p!"running", .null)], by decide +kernel, by decide +kernel⟩

/-- C82: values are printed as they are. One that the host has chosen can clear the screen. -/
theorem C82_escapes_refuted : ∃ v : Str, ∃ a b : Str,
    printOperation Example.udiff Example.repr { noColor := true } 0 Example.title
      { result := { success := true, changed := true, initial := [(p!"commit", .str v)], final := [(p!"commit", .str p!"x")] }, diffs := [] }
      = (a ++ 27 :: p!"[2J" ++ b, none) :=
  ⟨27 :: p!"[2J", p!"\rfile /etc/motd (greeting)\n└ commit: ", p!" → x\n", by decide +kernel⟩

end Verif.Run
