/-
Earlier operations on the same path.
-/
import Verif.Ops.UndoLemmas
import Verif.Ops.RepeatProps
import Verif.Ops.MirrorRepeatProps

namespace Verif.Ops

open Script Remote

variable {sys : Sys} {tools : Tools} {env : Env} {st : St} {w w0 w1 w2 : World} {path target : Str} {l : Loc} {mode owner group : Option Str}

/-- One operation of an earlier script, with the settings and the connection of that time. -/
structure Earlier where
  op : Op OpResult
  env : Env
  st : St
  lost : Nat → Option Bool

/-- The host after some attempts, however each of them ended. -/
def attempted (sys : Sys) (as : List Earlier) (w : World) : World := as.foldl (fun w a => (perform sys a.lost a.op a.env a.st w).2) w

/-- The attempt makes or removes a file at the path, or makes a directory there. -/
inductive AtPath (sys : Sys) (path : Str) : Op OpResult → Prop where
  | directory (touch : Bool) (mode owner group : Option Str) (check : Bool) : AtPath sys path (directory path true touch mode owner group check)
  | file (present touch : Bool) (mode owner group : Option Str) (check : Bool) : AtPath sys path (file path present touch mode owner group check)
  | store {mode owner group : Option Str} {check : Bool} {op : Op OpResult} {source : Except Exn Bytes}
      (h : Stores sys.sha512 mode owner group check op path source) (hsize : ∀ c, source = .ok c → Modest c.length) : AtPath sys path op

/-- Either the path leads nowhere, and nothing was done, or something was done at the one place it denotes. -/
def Made (sys : Sys) (tools : Tools) (path : Str) (w w1 : World) : Prop :=
  (∃ e, resolve w.fs w.cwd path false = .error e ∧ Same w w1) ∨ ∃ l, resolve w.fs w.cwd path false = .ok l ∧ Left sys tools path l w w1

theorem Elsewhere.trans (h : Elsewhere l w w1) (h' : Elsewhere l w1 w2) : Elsewhere l w w2 := by
  obtain ⟨o, s, rfl⟩ := h
  obtain ⟨o', s', rfl⟩ := h'
  refine ⟨o', s', ?_⟩
  have : setNode (setNode w.fs l o) l o' = setNode w.fs l o' := by
    funext q
    unfold setNode
    split <;> rfl
  simp only [World.set, this]

theorem Left.trans (h : Left sys tools path l w w1) (h' : Left sys tools path l w1 w2) : Left sys tools path l w w2 :=
  ⟨h'.ordinary, h'.users.trans h.users, h'.groups.trans h.groups, h.elsewhere.trans h'.elsewhere, h'.res⟩

theorem Made.trans (h : Made sys tools path w w1) (h' : Made sys tools path w1 w2) : Made sys tools path w w2 := by
  rcases h with ⟨e, h1, h2⟩ | ⟨l, h1, h2⟩
  · have h3 : resolve w1.fs w1.cwd path false = .error e := by rw [same_fs h2, same_cwd h2]; exact h1
    rcases h' with ⟨e', _, h5⟩ | ⟨l, h4, _⟩
    · exact .inl ⟨e, h1, h2.trans h5⟩
    · rw [h3] at h4; cases h4
  · rcases h' with ⟨e', h4, _⟩ | ⟨l', h4, h5⟩
    · rw [h2.res] at h4; cases h4
    · rw [h2.res] at h4; cases h4
      exact .inr ⟨l, h1, h2.trans h5⟩

theorem Made.direct (h : Made sys tools path w w1) (hd : Direct w path) : Direct w1 path := by
  rcases h with ⟨e, h1, h2⟩ | ⟨l, h1, h2⟩
  · intro l fs hl _
    rw [same_fs h2, same_cwd h2, h1] at hl
    cases hl
  · exact h2.elsewhere.direct h1 hd

/-- A file that was removed. -/
theorem removed_made (hord : Ordinary sys tools w) (hdir : Direct w path) (h : FileRest path false w w1) : Ordinary sys tools w1 ∧ Made sys tools path w w1 := by
  have same : Same w w1 → Ordinary sys tools w1 ∧ Made sys tools path w w1 := fun h => by
    refine ⟨h.ordinary hord, ?_⟩
    cases hr : resolve w.fs w.cwd path false with
    | error e => exact .inl ⟨e, hr, h⟩
    | ok l => exact .inr ⟨l, hr, .of_same hord hr h⟩
  rcases h with h | ⟨h, _⟩ | ⟨_, l, n, s, hr, hl, _, h⟩
  · exact same h
  · cases h
  · have ho : Ordinary sys tools w1 := hord.gone (path := path) (.inr ⟨l, n, s, hr, hl, h⟩)
    refine ⟨ho, .inr ⟨l, hr, ho, by rw [h]; rfl, by rw [h]; rfl, ⟨none, s, h⟩, ?_⟩⟩
    rw [h]
    exact hdir l _ hr (fun q hq => setNode_ne _ _ (by rintro rfl; rw [under_self] at hq; cases hq))

/-- Nothing is left at the place that the path denotes. -/
theorem gone_set (hres : resolve w.fs w.cwd path false = .ok l) (h : Gone path w w1) : ∃ s, w1 = { w.set l none with started := s } := by
  rcases h with ⟨h1, h2⟩ | ⟨l', n, s, h1, _, h2⟩
  · obtain ⟨o, s, he⟩ := Elsewhere.of_same l h2
    refine ⟨w1.started, ?_⟩
    have : setNode w.fs l none = w.fs := by
      funext q
      unfold setNode
      split
      · next h => rw [h, lookup_none_of h1 hres]
      · rfl
    simp only [World.set, this]
    exact h2
  · obtain rfl := resolved_eq hres h1
    exact ⟨s, h2⟩

/-- What one attempt does. -/
theorem attempt_made {a : Earlier} (hord : Ordinary sys tools w) (hdir : Direct w path) (hm : PlainModes a.env a.st) (h : AtPath sys path a.op) :
    let w1 := (perform sys a.lost a.op a.env a.st w).2
    Ordinary sys tools w1 ∧ Made sys tools path w w1 := by
  intro w1
  obtain ⟨op, env, st, lost⟩ := a
  cases h with
  | directory touch mode owner group check =>
    exact directory_made hord (post_world (directory_post hord hm) (fun _ _ _ h => h.1.2) : DirectoryLeft env st path true mode owner group w w1)
  | file present touch mode owner group check =>
    have := (post_world (file_post hord hm) (fun _ _ _ h => h.1.2) : FileRest path present w w1)
    cases present with
    | true => exact file_made hord this
    | false => exact removed_made hord hdir this
  | store h hsize =>
    exact store_made hord hsize (post_world (store_post h hord hm) (fun _ _ _ h => h.1.2) : StoreRest _ path w w1)

/-- What any number of attempts do. -/
theorem attempts_made {as : List Earlier} (hord : Ordinary sys tools w) (hdir : Direct w path) (h : ∀ a ∈ as, PlainModes a.env a.st ∧ AtPath sys path a.op) :
    Ordinary sys tools (attempted sys as w) ∧ Direct (attempted sys as w) path ∧ Made sys tools path w (attempted sys as w) := by
  induction as generalizing w with
  | nil =>
    refine ⟨hord, hdir, ?_⟩
    cases hr : resolve w.fs w.cwd path false with
    | error e => exact .inl ⟨e, hr, rfl⟩
    | ok l => exact .inr ⟨l, hr, .of_same hord hr rfl⟩
  | cons a as ih =>
    obtain ⟨h1, h2⟩ := attempt_made hord hdir (h a (by simp)).1 (h a (by simp)).2
    obtain ⟨h3, h4, h5⟩ := ih h1 (h2.direct hdir) (fun b hb => h b (by simp [hb]))
    exact ⟨h3, h4, h2.trans h5⟩

/-- Attempts that only set attributes keep the content. -/
theorem contents_kept {as : List Earlier} (hord : Ordinary sys tools w) (hres : resolve w.fs w.cwd path false = .ok l)
    (h : ∀ a ∈ as, PlainModes a.env a.st ∧ ∃ touch mode owner group check, a.op = file path true touch mode owner group check) :
    Left sys tools path l w (attempted sys as w) ∧ contentAt (attempted sys as w) l = contentAt w l := by
  induction as generalizing w with
  | nil => exact ⟨.of_same hord hres rfl, rfl⟩
  | cons a as ih =>
    obtain ⟨hm, touch, mode, owner, group, check, hop⟩ := h a (by simp)
    obtain ⟨op, env, st, lost⟩ := a
    simp only at hop hm
    subst hop
    obtain ⟨h1, h2⟩ := file_left hord hres (post_world (lost := lost) (file_post (check := check) (touch := touch) (mode := mode) (owner := owner) (group := group) hord hm) (fun _ _ _ h => h.1.2))
    obtain ⟨h3, h4⟩ := ih h1.ordinary h1.res (fun b hb => h b (by simp [hb]))
    exact ⟨h1.trans h3, h4.trans h2⟩

/-- A mode below 10000 in octal digits, without setuid and setgid. -/
def PlainMode (m : Str) : Prop := OctalText m ∧ ∀ i : Nat, Py.parseInt 8 m = some (i : Int) → i < 0o10000 ∧ i &&& 0o6000 = 0

theorem keptBits_self (w : World) (l : Loc) : keptBits w l &&& 0o6000 = keptBits w l := by
  unfold keptBits
  split
  · rw [Nat.and_assoc]; rfl
  · unfold inheritSetgid
    split
    · rw [Nat.and_assoc]; rfl
    · rfl

theorem bits_cancel {a b c : Nat} (hc : c &&& 0o6000 = 0) (h : a ||| c = b ||| c) : a &&& 0o6000 = b &&& 0o6000 := by
  have := congrArg (· &&& 0o6000) h
  simp only [Nat.and_or_distrib_right, hc, Nat.or_zero] at this
  exact this

/-- How such a mode is written in a command. -/
theorem plain_written {m t : Str} (hcm : mode = none → ∃ i, m = Py.natStr 8 i) (hm : PlainMode m) (ht : (some m).map (modeAs mode) = some t) :
    t.length < 5 ∧ octalValue t &&& 0o6000 = 0 := by
  have hi := parseInt_octal (s := m) (by simp only [octalText, Bool.and_eq_true, List.all_eq_true, decide_eq_true_eq]; exact hm.1)
  obtain ⟨h1, h2⟩ := hm.2 _ hi
  rw [mode_again hcm rfl hi] at ht
  cases ht
  rw [octalValue_natStr]
  exact ⟨natStr_short h1, h2⟩

/-- Attempts to make a directory without set-id bits keep those that are there. -/
theorem bits_kept {as : List Earlier} (hord : Ordinary sys tools w) (hres : resolve w.fs w.cwd path false = .ok l)
    (h : ∀ a ∈ as, PlainModes a.env a.st ∧ CanonicalModes a.env a.st ∧ ∃ touch mode owner group check, a.op = directory path true touch mode owner group check
      ∧ ∀ m, (inForce a.env a.st { dirMode := mode, owner, group }).dirMode = some m → PlainMode m) :
    Left sys tools path l w (attempted sys as w) ∧ keptBits (attempted sys as w) l = keptBits w l := by
  induction as generalizing w with
  | nil => exact ⟨.of_same hord hres rfl, rfl⟩
  | cons a as ih =>
    obtain ⟨hm, hcm, touch, mode, owner, group, check, hop, hmode⟩ := h a (by simp)
    obtain ⟨op, env, st, lost⟩ := a
    simp only at hop hm hcm hmode
    subst hop
    have hd : DirectoryLeft env st path true mode owner group w (perform sys lost (directory path true touch mode owner group check) env st w).2 :=
      post_world (directory_post hord hm) (fun _ _ _ h => h.1.2)
    have h1 : Left sys tools path l w (perform sys lost (directory path true touch mode owner group check) env st w).2
        ∧ keptBits (perform sys lost (directory path true touch mode owner group check) env st w).2 l = keptBits w l := by
      rcases hd with h | ⟨_, attr, t, l', hmo, hat, hres', o, hn, hd, hnone⟩ | ⟨h, _⟩
      · refine ⟨.of_same hord hres h, ?_⟩
        unfold keptBits
        rw [same_fs h]
      · obtain rfl := resolved_eq hres hres'
        refine ⟨.of_now hord hn (fun n h => (hd n h).sane), ?_⟩
        cases o with
        | none => unfold keptBits; rw [now_none_fs hn (hnone rfl)]
        | some n =>
          have hp := (hd n rfl).perm
          rw [hmo.dir] at hat
          cases hw : (inForce env st (dirArgs mode owner group)).dirMode with
          | none => rw [hw] at hat; cases hat
          | some m =>
            rw [hw] at hat
            obtain ⟨h1, h2⟩ := plain_written (fun hg => by subst hg; exact inForce_dir hcm hw) (hmode m hw) hat
            unfold numericPerm dirPerm at hp
            rw [if_pos ⟨(hd n rfl).kind, h1⟩, if_pos h1] at hp
            have h3 := bits_cancel h2 hp
            rw [Nat.and_assoc, keptBits_self] at h3
            rw [keptBits, hn.at]
            exact h3
      · cases h
    obtain ⟨h3, h4⟩ := ih h1.1.ordinary h1.1.res (fun b hb => h b (by simp [hb]))
    exact ⟨h1.1.trans h3, h4.trans h1.2⟩

end Verif.Ops
