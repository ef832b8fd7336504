/-
`upload_dir` on a host: what holds between its steps.
-/
import Verif.Ops.MirrorTreeLemmas
import Verif.Ops.OptionProps
import Verif.Ops.Record
import Verif.Ops.ConvergeProps
import Verif.Ops.FrameProps
import Verif.Ops.RepeatLemmas

namespace Verif.Ops

open Script Remote
open Client (Prog direct lostConnection)
open Wire (Packet)

section
variable {sys : Sys} {lost : Nat → Option Bool} {env : Env} {st : St} {w0 w w' : World}
variable {tools : Tools} {path : Str} {l : Loc} {n : Node} {mode owner group : Option Str}

/-! ### The stack of defaults -/

theorem Post.withStack {α : Type} {m : Op α} {Q : α → St → World → Prop} {E : World → Prop} (h : Post sys lost m env st w Q E) (hb : Balanced m) :
    Post sys lost m env st w (fun a st' w' => Q a st' w' ∧ st'.stack = st.stack) E := by
  intro k
  have hk := h k
  have hr := runs_recorded (flaky sys lost) (m env st) (w, k)
  match hm : exec (flaky sys lost) m env st (w, k) with
  | ((.ok a, st'), (w', k')) =>
    rw [hm] at hk
    refine ⟨hk, hb env st (recorded (flaky sys lost) (m env st) (w, k)) (.ok a) st' ?_⟩
    unfold exec at hm
    rw [hm] at hr
    exact hr
  | ((.error e, st'), (w', k')) => rw [hm] at hk; exact hk

theorem balanced_returned {m : Op OpResult} (h : Balanced m) : Balanced (returned m) := .bind h fun _ => Balanced.pure _

theorem balanced_directory (path : Str) (present touch : Bool) (mode owner group : Option Str) (check : Bool) :
    Balanced (directory path present touch mode owner group check) := by
  refine .operation (.bind (.ofExcept _) fun _ => balanced_returned (.withDefaults fun attr => ?_))
  refine .bind (balanced_finalState _) fun _ => .bind (.call _) fun s => ?_
  have hs : Balanced (settle (Op.pure ()) (directoryActions path present attr)) := balanced_settle (.pure _) (keeps_directoryActions _ _ _)
  cases s with
  | none => exact .bind (balanced_initialState _) fun _ => hs
  | some s =>
    simp only
    split
    · exact balanced_failure _
    · exact .bind (balanced_initialState _) fun _ => hs

theorem balanced_saveContent (sha512 : Bytes → Bytes) (content : Content) (dest : Str) (mode owner group : Option Str) :
    Balanced (saveContent sha512 content dest mode owner group) := by
  refine .bind (.ofExcept _) fun bytes => .withDefaults fun attr => ?_
  refine .bind (balanced_finalState _) fun _ => .bind (.call _) fun s => ?_
  have hs : Balanced (settle (saveDiff dest bytes) (saveActions attr bytes dest)) := balanced_settle (balanced_saveDiff _ _) (keeps_saveActions _ _ _)
  cases s with
  | none => exact .bind (balanced_initialState _) fun _ => hs
  | some s =>
    simp only
    split
    · exact balanced_failure _
    · exact .bind (balanced_initialState _) fun _ => hs

theorem balanced_upload (sha512 : Bytes → Bytes) (src : Str) (read : Except Exn Bytes) (dest : Str) (mode owner group : Option Str) (check : Bool) :
    Balanced (upload sha512 src read dest mode owner group check) :=
  .operation (.bind (.ofExcept _) fun _ => .bind (.ofExcept _) fun _ => balanced_returned (balanced_saveContent _ _ _ _ _ _))

theorem balanced_store {op : Op OpResult} {sha512 : Bytes → Bytes} {source : Except Exn Bytes} {check : Bool}
    (h : Stores sha512 mode owner group check op path source) : Balanced op := by
  cases h with
  | content => exact .operation (.bind (.ofExcept _) fun _ => balanced_returned (balanced_saveContent _ _ _ _ _ _))
  | file => exact balanced_upload _ _ _ _ _ _ _ _
  | templateContent =>
    exact .operation (.bind (.ofExcept _) fun _ => .bind (.ofExcept _) fun _ => balanced_returned (balanced_saveContent _ _ _ _ _ _))
  | template =>
    exact .operation (.bind (.ofExcept _) fun _ => .bind (.ofExcept _) fun _ => .bind (.ofExcept _) fun _ =>
      balanced_returned (balanced_saveContent _ _ _ _ _ _))

/-! ### Steps that touch one place -/

/-- Only the place `l` has changed, and if something was there, it is of the same type. Otherwise it is not a link now. -/
structure Step (sys : Sys) (tools : Tools) (l : Loc) (w w' : World) : Prop where
  untouched : Untouched (· = l) w w'
  grows : Grows w.fs w'.fs
  ordinary : Ordinary sys tools w'
  nolink : ∀ n t, w.fs l = none → w'.fs l = some n → n.kind ≠ .link t

theorem Step.same (hord : Ordinary sys tools w) (h : Same w w') : Step sys tools l w w' := by
  refine ⟨untouched_same h, ?_, hord.congr ?_ ?_ ?_, ?_⟩
  · rw [h]; exact .refl _
  · rw [h]; exact { hord.sane with }
  · rw [h]
  · rw [h]
  · intro n t h1 h2
    rw [show w'.fs = w.fs by rw [h], h1] at h2
    cases h2

theorem Step.now {o : Option Node} (hord : Ordinary sys tools w) (h : Now path l w o w') (hsane : ∀ n, o = some n → n.Sane)
    (hshape : w.fs l ≠ none → shape o = shape (w.fs l)) (hk : ∀ n t, o = some n → n.kind ≠ .link t) : Step sys tools l w w' := by
  refine ⟨untouched_now h rfl, ?_, hord.now h hsane, fun n t _ h2 => hk n t (h.at.symm.trans h2)⟩
  intro q hq
  by_cases hql : q = l
  · subst hql; rw [h.at]; exact hshape hq
  · rw [h.fs, setNode_ne _ _ hql]

/-- `IsDirectory` and `IsFile` refer to the accounts of the host only. -/
theorem OwnedBy.congr {want : Settings} (h : OwnedBy w want n) (hu : w'.users = w.users) (hg : w'.groups = w.groups) : OwnedBy w' want n := by
  refine ⟨fun u h1 => ?_, fun g h1 => ?_⟩
  · obtain ⟨e, h2, h3⟩ := h.1 u h1
    exact ⟨e, by unfold DenotesUser at h2 ⊢; rw [hu]; exact h2, h3⟩
  · obtain ⟨e, h2, h3⟩ := h.2 g h1
    exact ⟨e, by unfold DenotesGroup at h2 ⊢; rw [hg]; exact h2, h3⟩

/-- Whatever has happened to a directory, its mode can still become what it was to become before. -/
def KeepsBits (want : Settings) (given : Option Str) (l : Loc) (w w' : World) : Prop :=
  ∃ t, want.dirMode.map (modeAs given) = some t ∧ dirPerm t w' l = dirPerm t w l

theorem dirLeft_bits {t : Str} (h : DirLeft path t w l w') : dirPerm t w' l = dirPerm t w l := by
  obtain ⟨o, hn, hd, hnone⟩ := h
  cases o with
  | none => unfold dirPerm keptBits; rw [now_none_fs hn (hnone rfl)]
  | some n1 => rw [← numericPerm_dir (hd n1 rfl).kind hn.at]; exact (hd n1 rfl).perm

/-- What is at this place, if it is a directory, has no setuid or setgid bit. -/
def CleanAt (w : World) (l : Loc) : Prop := ∀ n, w.fs l = some n → n.kind = .dir → n.perm &&& 0o6000 = 0

/-- Nothing is there, and what will be created there inherits setgid. -/
def Inherits (w : World) (l : Loc) : Prop := w.fs l = none ∧ ∃ p, w.fs l.dropLast = some p ∧ p.perm &&& 0o2000 ≠ 0

theorem clean_step {want : Settings} (hs : Step sys tools l w w') (hb : KeepsBits want mode l w w')
    (ht : ∀ t, want.dirMode.map (modeAs mode) = some t → t.length < 5 ∧ octalValue t &&& 0o6000 = 0) (h1 : CleanAt w l) (h2 : ¬ Inherits w l) :
    CleanAt w' l := by
  intro n hn hk
  obtain ⟨t, ht', hp⟩ := hb
  obtain ⟨hlen, hv⟩ := ht t ht'
  have hz : keptBits w l = 0 := by
    unfold keptBits
    cases hl : w.fs l with
    | some m =>
      refine h1 m hl ?_
      have := hs.grows l (by rw [hl]; simp)
      rw [hl, hn] at this
      simp only [shape, hk] at this
      cases hm : m.kind <;> simp_all
    | none =>
      show inheritSetgid w.fs l = 0
      unfold inheritSetgid
      cases hp : w.fs l.dropLast with
      | none => rfl
      | some p =>
        have : p.perm &&& 0o2000 = 0 := Decidable.byContradiction fun hc => h2 ⟨hl, p, hp, hc⟩
        simp [this]
  unfold dirPerm at hp
  rw [if_pos hlen, if_pos hlen, hz, Nat.zero_or] at hp
  have hkb : keptBits w' l = n.perm &&& 0o6000 := by unfold keptBits; rw [hn]
  rw [hkb] at hp
  have := congrArg (· &&& 0o6000) hp
  simp only [Nat.and_or_distrib_right, hv, Nat.or_zero, Nat.and_assoc, Nat.and_self] at this
  exact this

theorem dir_step (hord : Ordinary sys tools w) (hm : PlainModes env st) (hdry : env.dry = false) (touch : Bool) :
    Post sys lost (directory path true touch mode owner group true) env st w
      (fun _ st' w' => st'.stack = st.stack ∧ ∃ l n, Denotes w path l ∧ Step sys tools l w w' ∧ w'.fs l = some n
        ∧ IsDirectory w (inForce env st { dirMode := mode, owner, group }) n ∧ KeepsBits (inForce env st { dirMode := mode, owner, group }) mode l w w')
      (fun w' => Same w w' ∨ ∃ l, Denotes w path l ∧ Step sys tools l w w' ∧ KeepsBits (inForce env st { dirMode := mode, owner, group }) mode l w w') := by
  have key : ∀ {t : Str} {attr : Settings} {l : Loc} {w' : World}, attr.dirMode = some t → DirLeft path t w l w' → Step sys tools l w w' := by
    intro t attr l w' _ ⟨o, hn, hd, ho⟩
    refine .now hord hn (fun n h => (hd n h).sane) (fun hne => ?_) (fun n t h hk => by rw [(hd n h).kind] at hk; cases hk)
    cases o with
    | none => exact absurd (ho rfl) hne
    | some n =>
      cases hl : w.fs l with
      | none => exact absurd hl hne
      | some m => simp only [shape, (hd n rfl).kind, (hd n rfl).was m hl]
  refine ((directory_post hord hm).withStack (balanced_directory _ _ _ _ _ _ _)).mono ?_ ?_
  · rintro r st' w' ⟨⟨⟨h1, _⟩, h2⟩, h3⟩
    refine ⟨h3, ?_⟩
    obtain ⟨attr, t, l, he, hmo, hat, _, _, hres, ⟨n, hn, hdn, hp, how⟩, m, hmm, hi⟩ := (h1 (h2 rfl) hdry).1 rfl
    have hleft : DirLeft path t w l w' := DirDone.left ⟨n, hn, hdn, hp, how⟩
    refine ⟨l, n, hres, key hat hleft, hn.at, ⟨hdn.kind, he.owned how, m, octalValue t, hmm, hi, ?_, ?_⟩, t, hmo.dir.symm.trans hat, dirLeft_bits hleft⟩
    · rw [hp]; exact dirPerm_special t w l
    · rw [hp]; exact dirPerm_covers t w l
  · rintro w' (h | ⟨_, attr, t, l, hmo, hat, hres, h⟩ | ⟨h, _⟩)
    · exact .inl h
    · exact .inr ⟨l, hres, key hat h, t, hmo.dir.symm.trans hat, dirLeft_bits h⟩
    · cases h

theorem store_step {op : Op OpResult} {source : Except Exn Bytes} (hop : Stores sys.sha512 mode owner group true op path source)
    (hord : Ordinary sys tools w) (hm : PlainModes env st) (hdry : env.dry = false) (hmod : ∀ bytes, source = .ok bytes → Modest bytes.length) :
    Post sys lost op env st w
      (fun _ st' w' => st'.stack = st.stack ∧ ∃ l n bytes, source = .ok bytes ∧ Denotes w path l ∧ Step sys tools l w w' ∧ w'.fs l = some n
        ∧ IsFile sys w (inForce env st { fileMode := mode, owner, group }) bytes n)
      (fun w' => Same w w' ∨ ∃ l, Denotes w path l ∧ Step sys tools l w w' ∧ CleanAt w' l) := by
  have key : ∀ {bytes : Bytes} {l : Loc} {w' : World}, source = .ok bytes → WasFile w l → SaveLeft bytes.length path w l w' →
      Step sys tools l w w' ∧ CleanAt w' l := by
    intro bytes l w' hs hwas ⟨o, hn, hd, ho⟩
    have hclean : CleanAt w' l := by
      intro n h hk
      rw [hn.at] at h
      obtain ⟨c, hc⟩ := (hd n h).kind
      rw [hc] at hk; cases hk
    refine ⟨?_, hclean⟩
    refine .now hord hn (fun n h => (hd n h).sane (hmod _ hs)) (fun hne => ?_) (fun n t h hk => by
      obtain ⟨c, hc⟩ := (hd n h).kind
      rw [hc] at hk; cases hk)
    cases o with
    | none => exact absurd (ho rfl) hne
    | some n =>
      cases hl : w.fs l with
      | none => exact absurd hl hne
      | some m =>
        obtain ⟨c, hc⟩ := hwas m hl
        obtain ⟨c', hc'⟩ := (hd n rfl).kind
        simp only [shape, hc, hc']
  refine ((store_post hop hord hm).withStack (balanced_store hop)).mono ?_ ?_
  · rintro r st' w' ⟨⟨⟨h1, hrest⟩, h2⟩, h3⟩
    refine ⟨h3, ?_⟩
    obtain ⟨bytes, hsrc, attr, l, i, m, he, _, hmm, hi, hi0, hres, n, c, hn, hsane, hk, hc, hp, how⟩ := h1 (h2 rfl) hdry
    have hstep : Step sys tools l w w' := by
      rcases hrest with h | ⟨b, hb, h | ⟨l', hres', hwas, h⟩⟩
      · exact .same hord h
      · exact .same hord h
      · rw [hres] at hres'; cases hres'
        exact (key hb hwas h).1
    obtain ⟨i, rfl⟩ : ∃ k : Nat, i = (k : Int) := ⟨i.toNat, (Int.toNat_of_nonneg hi0).symm⟩
    have hmod : ((i : Int) % 4096).toNat = i % 4096 := by omega
    rw [hmod] at hp
    exact ⟨l, n, bytes, hsrc, hres, hstep, hn.at, ⟨c, hk, hc⟩, he.owned how, m, i, hmm, hi, hp.low, hp.within⟩
  · rintro w' (h | ⟨b, hb, h | ⟨l, hres, hwas, h⟩⟩)
    · exact .inl h
    · exact .inl h
    · exact .inr ⟨l, hres, key hb hwas h⟩

theorem file_step (hord : Ordinary sys tools w) (hm : PlainModes env st) (hdry : env.dry = false) {source : Except Exn Bytes}
    (hmod : ∀ bytes, source = .ok bytes → Modest bytes.length) (hdest : destOf (baseName path) path = path) :
    Post sys lost (upload sys.sha512 (baseName path) source path mode owner group true) env st w
      (fun _ st' w' => st'.stack = st.stack ∧ ∃ l n bytes, source = .ok bytes ∧ Denotes w path l ∧ Step sys tools l w w' ∧ w'.fs l = some n
        ∧ IsFile sys w (inForce env st { fileMode := mode, owner, group }) bytes n)
      (fun w' => Same w w' ∨ ∃ l, Denotes w path l ∧ Step sys tools l w w' ∧ CleanAt w' l) := by
  have hop := Stores.file (sha512 := sys.sha512) (mode := mode) (owner := owner) (group := group) (check := true) (baseName path) source path
  rw [hdest] at hop
  exact store_step hop hord hm hdry hmod

/-! ### Local steps -/

theorem Post.ofRet {α : Type} {m : Op α} {a : α} {st' : St} {Q : α → St → World → Prop} {E : World → Prop} (h : m env st = .ret (.ok a, st'))
    (hQ : Q a st' w) : Post sys lost m env st w Q E := by
  intro k
  unfold exec
  rw [h]
  exact hQ

theorem Post.ofErr {α : Type} {m : Op α} {e : Exn} {st' : St} {Q : α → St → World → Prop} {E : World → Prop} (h : m env st = .ret (.error e, st'))
    (hE : E w) : Post sys lost m env st w Q E := by
  intro k
  unfold exec
  rw [h]
  exact hE

theorem Post.addNested {key : Str} {r : OpResult} {Q : Unit → St → World → Prop} {E : World → Prop} (hQ : ∀ st', st'.stack = st.stack → Q () st' w)
    (hE : E w) : Post sys lost (addNestedResult key r) env st w Q E := by
  by_cases h1 : st.op.hasNested = true
  · by_cases h2 : (((st.op.initial.getD []).get key).isSome || ((st.op.final.getD []).get key).isSome) = true
    · exact Post.ofErr (by unfold addNestedResult; rw [h1]; simp only [Bool.not_true, Bool.false_eq_true, if_false]; rw [if_pos h2]) hE
    · refine Post.ofRet (st' := { st with op := { st.op with initial := some (st.op.initial.getD [] ++ [(key, .dict r.initial)]), final := some (st.op.final.getD [] ++ [(key, .dict r.final)]) } })
        (by unfold addNestedResult; rw [h1]; simp only [Bool.not_true, Bool.false_eq_true, if_false]; rw [if_neg h2]) (hQ _ rfl)
  · exact Post.ofErr (by unfold addNestedResult; rw [if_pos (by simpa using h1)]) hE

theorem Post.succeed {Q : OpResult → St → World → Prop} {E : World → Prop} (hQ : ∀ r st', st'.stack = st.stack → r.success = true → Q r st' w)
    (hE : E w) : Post sys lost Script.success env st w Q E := by
  rcases success_cases env st with ⟨e, h⟩ | ⟨i, f, _, _, h⟩
  · exact Post.ofErr h hE
  · exact Post.ofRet h (hQ _ _ (St.show_stack _ _) rfl)

/-! ### The loops -/

/-- What is fixed while `upload_dir` runs: the place of the top directory, and all places that may change. -/
structure Job where
  names : List Str
  place : Loc
  may : Loc → Prop
  dirWant : Settings
  fileWant : Settings
  tame : Prop

/-- How far it has come. -/
structure Progress (sys : Sys) (tools : Tools) (j : Job) (w0 : World) (ds : List Loc) (fs : List (Loc × Tree)) (w : World) : Prop where
  ordinary : Ordinary sys tools w
  grows : Grows w0.fs w.fs
  untouched : Untouched (fun q => ∃ rel, j.may rel ∧ q = j.place ++ rel) w0 w
  res : ∀ rel ∈ ds, Denotes w (pathOf (j.names ++ rel)) (j.place ++ rel)
  dirs : ∀ rel ∈ ds, ∃ n, w.fs (j.place ++ rel) = some n ∧ IsDirectory w0 j.dirWant n
  mayDirs : ∀ rel ∈ ds, j.may rel
  files : ∀ x ∈ fs, Mirrored sys j.dirWant j.fileWant w0 w (j.place ++ x.1) x.2
  order : ∀ p m, w.fs (j.place ++ (p ++ [m])) ≠ w0.fs (j.place ++ (p ++ [m])) → p ∈ ds
  clean : j.tame → (∀ rel, j.may rel → CleanAt w (j.place ++ rel)) ∧ ¬ Inherits w j.place

/-- However it ends. -/
structure Kept (sys : Sys) (tools : Tools) (j : Job) (w0 w : World) : Prop where
  untouched : Untouched (fun q => ∃ rel, j.may rel ∧ q = j.place ++ rel) w0 w
  order : ∀ p m, w.fs (j.place ++ (p ++ [m])) ≠ w0.fs (j.place ++ (p ++ [m])) → ∃ n, w.fs (j.place ++ p) = some n ∧ IsDirectory w0 j.dirWant n
  ordinary : Ordinary sys tools w
  grows : Grows w0.fs w.fs
  clean : j.tame → (∀ rel, j.may rel → CleanAt w (j.place ++ rel)) ∧ ¬ Inherits w j.place

variable {j : Job} {dirs : List Loc} {files : List (Loc × Tree)}

theorem Progress.kept (h : Progress sys tools j w0 dirs files w) : Kept sys tools j w0 w :=
  ⟨h.untouched, fun p m hne => h.dirs p (h.order p m hne), h.ordinary, h.grows, h.clean⟩

theorem Kept.same (h : Kept sys tools j w0 w) (hs : Same w w') : Kept sys tools j w0 w' := by
  have hfs : w'.fs = w.fs := by rw [hs]
  refine ⟨⟨fun q hq => ?_, ?_⟩, ?_, hs.ordinary h.ordinary, ?_, ?_⟩
  · rw [hs]; exact h.untouched.fs q hq
  · rw [hs, h.untouched.rest]
  · rw [hfs]; exact h.order
  · rw [hfs]; exact h.grows
  · unfold CleanAt Inherits
    rw [hfs]; exact h.clean

theorem Untouched.accounts {p : Loc → Prop} (h : Untouched p w w') : w'.users = w.users ∧ w'.groups = w.groups := by
  rw [h.rest]; exact ⟨rfl, rfl⟩

theorem Mirrored.elsewhere {dw fw : Settings} {t : Tree} (h : Mirrored sys dw fw w0 w l t) (hfs : w'.fs l = w.fs l) : Mirrored sys dw fw w0 w' l t := by
  cases t <;> simp only [Mirrored, hfs] at h ⊢ <;> exact h

/-- A step at a new place keeps what has been achieved. -/
theorem Progress.step {rel : Loc} (h : Progress sys tools j w0 dirs files w) (hs : Step sys tools (j.place ++ rel) w w') (hm : j.may rel)
    (h1 : rel ∉ dirs) (h2 : rel ∉ files.map (·.1)) (h3 : ∀ p m, rel = p ++ [m] → p ∈ dirs)
    (h4 : j.tame → CleanAt w' (j.place ++ rel)) : Progress sys tools j w0 dirs files w' := by
  have hcwd : w'.cwd = w.cwd := by rw [hs.untouched.rest]
  refine ⟨hs.ordinary, h.grows.trans hs.grows, ⟨fun q hq => ?_, ?_⟩, ?_, ?_, h.mayDirs, ?_, ?_, ?_⟩
  · rw [hs.untouched.fs q (fun he => hq ⟨rel, hm, he⟩)]
    exact h.untouched.fs q hq
  · rw [hs.untouched.rest, h.untouched.rest]
  · intro r hr
    unfold Denotes
    rw [hcwd]
    exact resolve_grows hs.grows (h.res r hr)
  · intro r hr
    rw [hs.untouched.fs _ (fun he => h1 (by rw [← List.append_cancel_left he]; exact hr))]
    exact h.dirs r hr
  · intro x hx
    refine (h.files x hx).elsewhere (hs.untouched.fs _ fun he => h2 ?_)
    rw [← List.append_cancel_left he]
    exact List.mem_map.mpr ⟨x, hx, rfl⟩
  · intro p m hne
    by_cases he : rel = p ++ [m]
    · exact h3 p m he
    · refine h.order p m ?_
      rwa [hs.untouched.fs _ (fun hq => he (List.append_cancel_left hq).symm)] at hne
  · intro ht
    obtain ⟨hc1, hc2⟩ := h.clean ht
    refine ⟨fun r hr => ?_, ?_⟩
    · by_cases he : r = rel
      · rw [he]; exact h4 ht
      · unfold CleanAt
        rw [hs.untouched.fs _ (fun hq => he (List.append_cancel_left hq))]
        exact hc1 r hr
    · rintro ⟨e1, p, e2, e3⟩
      have hne : j.place.dropLast ≠ j.place ++ rel := by
        intro he
        have hlen := congrArg List.length he
        simp only [List.length_dropLast, List.length_append] at hlen
        have : j.place = [] := List.length_eq_zero_iff.mp (by omega)
        rw [this] at e1 e2
        rw [List.dropLast_nil, e1] at e2
        cases e2
      rw [hs.untouched.fs _ hne] at e2
      refine hc2 ⟨?_, p, e2, e3⟩
      cases hw : w.fs j.place with
      | none => rfl
      | some n =>
        have := hs.grows j.place (by rw [hw]; simp)
        rw [e1, hw] at this
        simp only [shape] at this
        cases hk : n.kind <;> simp_all

theorem parent_of {rel p : Loc} {m : Str} {dirs : List Loc} (hp : p ∈ dirs) (he : rel = p ++ [m]) : ∀ p m, rel = p ++ [m] → p ∈ dirs := by
  intro p' m' h
  rw [he] at h
  have := (List.append_inj' h rfl).1
  rw [← this]; exact hp

theorem Progress.child {rel p : Loc} {m : Str} (h : Progress sys tools j w0 dirs files w) (hp : p ∈ dirs) (he : rel = p ++ [m])
    (hn : ∀ n ∈ j.names ++ rel, FileName n) : Denotes w (pathOf (j.names ++ rel)) (j.place ++ rel) := by
  subst he
  obtain ⟨n, h1, h2⟩ := h.dirs p hp
  have := resolve_child (n := m) (fun n hn' => hn n (by simp at hn' ⊢; rcases hn' with h | h <;> simp [h])) (hn m (by simp)) (h.res p hp)
    (by rw [h1]; simp only [shape, h2.1])
  unfold Denotes
  rwa [List.append_assoc, List.append_assoc] at this

theorem Progress.addDir {rel : Loc} (h : Progress sys tools j w0 dirs files w) (hd : Denotes w (pathOf (j.names ++ rel)) (j.place ++ rel))
    (hn : w.fs (j.place ++ rel) = some n) (hi : IsDirectory w0 j.dirWant n) (hmay : j.may rel) : Progress sys tools j w0 (rel :: dirs) files w := by
  refine { h with res := ?_, dirs := ?_, mayDirs := fun r hr => (List.mem_cons.mp hr).elim (fun h => h ▸ hmay) (h.mayDirs r), order := fun p m hne => List.mem_cons_of_mem _ (h.order p m hne) }
  · intro r hr
    rcases List.mem_cons.mp hr with rfl | hr
    · exact hd
    · exact h.res r hr
  · intro r hr
    rcases List.mem_cons.mp hr with rfl | hr
    · exact ⟨n, hn, hi⟩
    · exact h.dirs r hr

theorem Progress.addFile {x : Loc × Tree} (h : Progress sys tools j w0 dirs files w) (hx : Mirrored sys j.dirWant j.fileWant w0 w (j.place ++ x.1) x.2) :
    Progress sys tools j w0 dirs (x :: files) w := by
  refine { h with files := ?_ }
  intro y hy
  rcases List.mem_cons.mp hy with rfl | hy
  · exact hx
  · exact h.files y hy

theorem plainModes_congr {st1 : St} (h : st1.stack = st.stack) (hm : PlainModes env st) : PlainModes env st1 := by
  unfold PlainModes inForce at hm ⊢
  rw [h]; exact hm

theorem inForce_congr {st1 : St} (h : st1.stack = st.stack) (s : Settings) : inForce env st1 s = inForce env st s := by
  unfold inForce; rw [h]

theorem IsDirectory.congr {want : Settings} (h : IsDirectory w want n) (hu : w'.users = w.users) (hg : w'.groups = w.groups) : IsDirectory w' want n :=
  ⟨h.1, h.2.1.congr hu hg, h.2.2⟩

theorem IsFile.congr {want : Settings} {bytes : Bytes} (h : IsFile sys w want bytes n) (hu : w'.users = w.users) (hg : w'.groups = w.groups) :
    IsFile sys w' want bytes n := ⟨h.1, h.2.1.congr hu hg, h.2.2⟩

/-- Creating one directory. -/
theorem dir_progress (hdry : env.dry = false) (hm : PlainModes env st) (hj : j.dirWant = inForce env st { dirMode := mode, owner, group })
    (ht : j.tame → ∀ t, j.dirWant.dirMode.map (modeAs mode) = some t → t.length < 5 ∧ octalValue t &&& 0o6000 = 0)
    {rel p : Loc} {m : Str} {dirs : List Loc} {st1 : St} {w : World} (hst : st1.stack = st.stack) (hpr : Progress sys tools j w0 dirs [] w)
    (hp : p ∈ dirs) (he : rel = p ++ [m]) (hnew : rel ∉ dirs) (hmay : j.may rel) (hnames : ∀ n ∈ j.names ++ rel, FileName n) :
    Post sys lost (directory (pathOf (j.names ++ rel)) true false mode owner group true) env st1 w
      (fun _ st2 w2 => st2.stack = st.stack ∧ Step sys tools (j.place ++ rel) w w2 ∧ Progress sys tools j w0 (rel :: dirs) [] w2) (Kept sys tools j w0) := by
  have hden := hpr.child hp he hnames
  have hclean : ∀ {w2 : World}, Step sys tools (j.place ++ rel) w w2 → KeepsBits (inForce env st1 { dirMode := mode, owner, group }) mode (j.place ++ rel) w w2 →
      j.tame → CleanAt w2 (j.place ++ rel) := by
    intro w2 hs hb htame
    rw [inForce_congr hst, ← hj] at hb
    obtain ⟨hc1, hc2⟩ := hpr.clean htame
    refine clean_step hs hb (ht htame) (hc1 rel hmay) ?_
    rintro ⟨_, q, hq, hset⟩
    obtain ⟨np, hnp, hip⟩ := hpr.dirs p hp
    rw [he, ← List.append_assoc, List.dropLast_concat, hnp] at hq
    have hz := hc1 p (hpr.mayDirs p hp) np hnp hip.1
    cases hq
    apply hset
    have : q.perm &&& 0o2000 = (q.perm &&& 0o6000) &&& 0o2000 := by rw [Nat.and_assoc]; rfl
    rw [this, hz, Nat.zero_and]
  refine (dir_step hpr.ordinary (plainModes_congr hst hm) hdry false).mono ?_ ?_
  · rintro r st2 w2 ⟨hst2, l, n, hl, hstep, hn, hi, hkb⟩
    have hll : l = j.place ++ rel := by
      have := hl.symm.trans hden; cases this; rfl
    subst hll
    have hpr2 := hpr.step hstep hmay hnew (by simp) (parent_of hp he) (hclean hstep hkb)
    have hacc := hpr.untouched.accounts
    have hden2 : Denotes w2 (pathOf (j.names ++ rel)) (j.place ++ rel) := by
      have hcwd : w2.cwd = w.cwd := by rw [hstep.untouched.rest]
      unfold Denotes; rw [hcwd]
      exact resolve_grows hstep.grows hden
    exact ⟨hst2.trans hst, hstep, hpr2.addDir hden2 hn (by rw [hj, ← inForce_congr hst]; exact hi.congr hacc.1.symm hacc.2.symm) hmay⟩
  · rintro w2 (h | ⟨l, hl, hstep, hkb⟩)
    · exact Kept.same hpr.kept h
    · have hll : l = j.place ++ rel := by
        have := hl.symm.trans hden; cases this; rfl
      subst hll
      exact (hpr.step hstep hmay hnew (by simp) (parent_of hp he) (hclean hstep hkb)).kept

/-- Creating the directories. -/
theorem dirs_post (hdry : env.dry = false) (hm : PlainModes env st) (hj : j.dirWant = inForce env st { dirMode := mode, owner, group })
    (ht : j.tame → ∀ t, j.dirWant.dirMode.map (modeAs mode) = some t → t.length < 5 ∧ octalValue t &&& 0o6000 = 0) :
    ∀ (rels : List Loc) {dirs : List Loc} {st1 : St} {w : World}, st1.stack = st.stack → Progress sys tools j w0 dirs [] w →
      ParentsFirst dirs rels → rels.Nodup → (∀ r ∈ rels, r ∉ dirs) → (∀ r ∈ rels, j.may r ∧ ∀ n ∈ j.names ++ r, FileName n) →
      Post sys lost (uploadDirs mode owner group (rels.map fun rel => pathOf (j.names ++ rel))) env st1 w
        (fun _ st' w' => st'.stack = st.stack ∧ ∃ ds, (∀ r, r ∈ dirs ∨ r ∈ rels → r ∈ ds) ∧ (∀ r ∈ ds, r ∈ dirs ∨ r ∈ rels) ∧ Progress sys tools j w0 ds [] w') (Kept sys tools j w0)
  | [], dirs, st1, w, hst, hpr, _, _, _, _ => by
    rw [List.map_nil, uploadDirs]
    exact Post.pure ⟨hst, dirs, fun r h => h.elim id (fun h => by cases h), fun r h => .inl h, hpr⟩
  | rel :: rels, dirs, st1, w, hst, hpr, ⟨⟨p, m, he, hp⟩, hpf⟩, hnd, hnew, hall => by
    rw [List.map_cons, uploadDirs]
    rw [List.nodup_cons] at hnd
    obtain ⟨hmay, hnames⟩ := hall rel (by simp)
    refine Post.bind ((dir_progress hdry hm hj ht hst hpr hp he (hnew rel (by simp)) hmay hnames).mono ?_ (fun _ h => h))
    rintro r st2 w2 ⟨hst2, hstep, hpr3⟩
    refine Post.bind (Post.addNested (fun st3 hst3 => ?_) hpr3.kept)
    refine (dirs_post hdry hm hj ht rels (hst3.trans hst2) hpr3 hpf hnd.2 ?_ (fun r hr => hall r (by simp [hr]))).mono ?_ (fun _ h => h)
    · intro r hr hc
      rcases List.mem_cons.mp hc with rfl | hc
      · exact hnd.1 hr
      · exact hnew r (by simp [hr]) hc
    · rintro _ st' w' ⟨h1, ds, h2, h3, h4⟩
      refine ⟨h1, ds, ?_, ?_, h4⟩
      · rintro r (hr | hr)
        · exact h2 r (.inl (by simp [hr]))
        · rcases List.mem_cons.mp hr with rfl | hr
          · exact h2 _ (.inl (by simp))
          · exact h2 r (.inr hr)
      · intro r hr
        rcases h3 r hr with h | h
        · rcases List.mem_cons.mp h with rfl | h
          · exact .inr (by simp)
          · exact .inl h
        · exact .inr (by simp [h])

theorem destOf_pathOf {names : List Str} {m : Str} (h : ∀ n ∈ names ++ [m], FileName n) : destOf (baseName (pathOf (names ++ [m]))) (pathOf (names ++ [m])) = pathOf (names ++ [m]) :=
  (destOf_lands (.renamed (by simp) h)).1

/-- Storing one file. -/
theorem file_progress (hdry : env.dry = false) (hm : PlainModes env st) (hj : j.fileWant = inForce env st { fileMode := mode, owner, group })
    {rel p : Loc} {m : Str} {t : Tree} {c : Except Exn Bytes} {dirs : List Loc} {files : List (Loc × Tree)} {st1 : St} {w : World} (hst : st1.stack = st.stack)
    (hpr : Progress sys tools j w0 dirs files w) (ht : t = .file c ∨ t = .fileLink c)
    (hp : p ∈ dirs) (he : rel = p ++ [m]) (hnew : rel ∉ dirs ∧ rel ∉ files.map (·.1)) (hmay : j.may rel) (hnames : ∀ n ∈ j.names ++ rel, FileName n)
    (hsize : ∀ bytes, c = .ok bytes → Modest bytes.length) :
    Post sys lost (upload sys.sha512 (baseName (pathOf (j.names ++ rel))) c (pathOf (j.names ++ rel)) mode owner group true) env st1 w
      (fun _ st2 w2 => st2.stack = st.stack ∧ Step sys tools (j.place ++ rel) w w2 ∧ Progress sys tools j w0 dirs ((rel, t) :: files) w2) (Kept sys tools j w0) := by
  have hden := hpr.child hp he hnames
  have hdest : destOf (baseName (pathOf (j.names ++ rel))) (pathOf (j.names ++ rel)) = pathOf (j.names ++ rel) := by
    rw [he, ← List.append_assoc]
    refine destOf_pathOf ?_
    rw [List.append_assoc, ← he]; exact hnames
  refine (file_step hpr.ordinary (plainModes_congr hst hm) hdry hsize hdest).mono ?_ ?_
  · rintro r st2 w2 ⟨hst2, l, n, bytes, hsrc, hl, hstep, hn, hi⟩
    have hll : l = j.place ++ rel := by
      have := hl.symm.trans hden; cases this; rfl
    subst hll
    have hpr2 := hpr.step hstep hmay hnew.1 hnew.2 (parent_of hp he) (fun _ n' h hk => by
      obtain ⟨⟨c', hc', _⟩, _⟩ := hi
      rw [hn] at h; cases h
      rw [hc'] at hk; cases hk)
    have hacc := hpr.untouched.accounts
    have hif : IsFile sys w0 j.fileWant bytes n := by rw [hj, ← inForce_congr hst]; exact hi.congr hacc.1.symm hacc.2.symm
    refine ⟨hst2.trans hst, hstep, hpr2.addFile ?_⟩
    rcases ht with rfl | rfl
    · exact ⟨bytes, n, hsrc, hn, hif⟩
    · exact ⟨bytes, n, hsrc, hn, hif⟩
  · rintro w2 (h | ⟨l, hl, hstep, hcl⟩)
    · exact Kept.same hpr.kept h
    · have hll : l = j.place ++ rel := by
        have := hl.symm.trans hden; cases this; rfl
      subst hll
      exact (hpr.step hstep hmay hnew.1 hnew.2 (parent_of hp he) (fun _ => hcl)).kept

theorem content_store {t : Tree} {c : Except Exn Bytes} (hc : t.content? = some c) : t = .file c ∨ t = .fileLink c := by
  cases t with
  | file d => cases hc; exact .inl rfl
  | fileLink d => cases hc; exact .inr rfl
  | dir => cases hc
  | dirLink => cases hc
  | special => cases hc

theorem content_none {t : Tree} (hc : t.content? = none) (hd : t.isDir = false) : t = .special := by
  cases t with
  | special => rfl
  | file => cases hc
  | fileLink => cases hc
  | dir => cases hd
  | dirLink => cases hd

/-- Storing the files. -/
theorem files_post (hdry : env.dry = false) (hm : PlainModes env st) (hj : j.fileWant = inForce env st { fileMode := mode, owner, group }) :
    ∀ (todo : List (Loc × Tree)) {dirs : List Loc} {files : List (Loc × Tree)} {st1 : St} {w : World}, st1.stack = st.stack →
      Progress sys tools j w0 dirs files w → ((todo.map (·.1)).Nodup) → (∀ x ∈ todo, x.1 ∉ dirs ∧ x.1 ∉ files.map (·.1)) →
      (∀ x ∈ todo, x.2.isDir = false ∧ (x.2.Transferred → j.may x.1) ∧ (∀ t, x.2 = t → ¬ t.Transferred → ¬ j.may x.1) ∧ (∃ p m, x.1 = p ++ [m] ∧ p ∈ dirs) ∧ (∀ n ∈ j.names ++ x.1, FileName n)
        ∧ ∀ bytes, x.2.content? = some (.ok bytes) → Modest bytes.length) →
      Post sys lost (uploadFiles sys.sha512 mode owner group (todo.map fun x => (x.2, pathOf (j.names ++ x.1)))) env st1 w
        (fun _ st' w' => st'.stack = st.stack ∧ ∃ fs, (∀ x, x ∈ files ∨ x ∈ todo → x ∈ fs) ∧ Progress sys tools j w0 dirs fs w') (Kept sys tools j w0)
  | [], dirs, files, st1, w, hst, hpr, _, _, _ => by
    rw [List.map_nil, uploadFiles]
    exact Post.pure ⟨hst, files, fun r h => h.elim id (fun h => by cases h), hpr⟩
  | (rel, t) :: todo, dirs, files, st1, w, hst, hpr, hnd, hnew, hall => by
    rw [List.map_cons, uploadFiles]
    rw [List.map_cons, List.nodup_cons] at hnd
    obtain ⟨hnd0, hmay, hnot, ⟨p, m, he, hp⟩, hnames, hsize⟩ := hall (rel, t) (by simp)
    simp only at hnd0 hmay hnot he hnames hsize
    have next : ∀ {st3 : St} {w2 : World}, st3.stack = st.stack → Progress sys tools j w0 dirs ((rel, t) :: files) w2 →
        Post sys lost (uploadFiles sys.sha512 mode owner group (todo.map fun x => (x.2, pathOf (j.names ++ x.1)))) env st3 w2
          (fun _ st' w' => st'.stack = st.stack ∧ ∃ fs, (∀ x, x ∈ files ∨ x ∈ (rel, t) :: todo → x ∈ fs) ∧ Progress sys tools j w0 dirs fs w') (Kept sys tools j w0) := by
      intro st3 w2 hst3 hpr3
      refine (files_post hdry hm hj todo hst3 hpr3 hnd.2 ?_ (fun x hx => hall x (by simp [hx]))).mono ?_ (fun _ h => h)
      · intro x hx
        refine ⟨(hnew x (by simp [hx])).1, ?_⟩
        rw [List.map_cons, List.mem_cons]
        rintro (h | h)
        · exact hnd.1 (by rw [← h]; exact List.mem_map.mpr ⟨x, hx, rfl⟩)
        · exact (hnew x (by simp [hx])).2 h
      · rintro _ st' w' ⟨h1, fs, h2, h3⟩
        refine ⟨h1, fs, ?_, h3⟩
        rintro x (hx | hx)
        · exact h2 x (.inl (by simp [hx]))
        · rcases List.mem_cons.mp hx with rfl | hx
          · exact h2 _ (.inl (by simp))
          · exact h2 x (.inr hx)
    cases hc : t.content? with
    | none =>
      have ht := content_none hc hnd0
      refine next hst (hpr.addFile ?_)
      subst ht
      refine hpr.untouched.fs _ ?_
      rintro ⟨r, hr, heq⟩
      rw [← List.append_cancel_left heq] at hr
      exact hnot _ rfl (fun h => h) hr
    | some c =>
      have hm' : j.may rel := hmay (by rcases content_store hc with rfl | rfl <;> trivial)
      simp only
      refine Post.bind ((file_progress hdry hm hj hst hpr (content_store hc) hp he (hnew (rel, t) (by simp)) hm' hnames
        (fun b hb => hsize b (by rw [hc, hb]))).mono ?_ (fun _ h => h))
      rintro r st2 w2 ⟨hst2, hstep, hpr2⟩
      exact Post.bind (Post.addNested (fun st3 hst3 => next (hst3.trans hst2) hpr2) hpr2.kept)

/-! ### All of it -/

theorem transferred_dir {t : Tree} (h : t.isDir = true) : t.Transferred := by
  cases t <;> first | trivial | cases h

/-- No setuid or setgid bits are there, inherited or requested. -/
def Tame (env : Env) (st : St) (dirMode owner group : Option Str) (es : List (Str × Tree)) (w0 : World) (l : Loc) : Prop :=
  (∀ t, (inForce env st { dirMode, owner, group }).dirMode.map (modeAs dirMode) = some t → t.length < 5 ∧ octalValue t &&& 0o6000 = 0)
    ∧ (∀ rel t, Tree.At (.dir es) rel t → t.Transferred → CleanAt w0 (l ++ rel)) ∧ ¬ Inherits w0 l

/-- What is fixed while it runs. -/
abbrev mirrorJob (env : Env) (st : St) (dirMode fileMode owner group : Option Str) (names : List Str) (es : List (Str × Tree)) (w0 : World) (l : Loc) : Job :=
  { names, place := l, may := fun rel => ∃ t, Tree.At (.dir es) rel t ∧ t.Transferred,
    dirWant := inForce env st { dirMode, owner, group }, fileWant := inForce env st { fileMode, owner, group },
    tame := Tame env st dirMode owner group es w0 l }

/-- The directory at the top has been made. -/
theorem top_progress {w1 : World} {l : Loc} {n : Node} {es : List (Str × Tree)} {names : List Str} {dirMode fileMode : Option Str} (hord : Ordinary sys tools w)
    (hden : Denotes w (pathOf names) l) (hstep : Step sys tools l w w1) (hn : w1.fs l = some n) (hi : IsDirectory w (inForce env st { dirMode, owner, group }) n)
    (hkb : KeepsBits (inForce env st { dirMode, owner, group }) dirMode l w w1) :
    Progress sys tools (mirrorJob env st dirMode fileMode owner group names es w l) w [[]] [] w1 := by
  let j : Job := mirrorJob env st dirMode fileMode owner group names es w l
  have hstep' : Step sys tools (j.place ++ []) w w1 := by rw [List.append_nil]; exact hstep
  have hpr0 : Progress sys tools j w [] [] w :=
    ⟨hord, .refl _, ⟨fun _ _ => rfl, rfl⟩, (by intro r h; cases h), (by intro r h; cases h), (by intro r h; cases h),
      (by intro r h; cases h), (by intro p m h; exact absurd rfl h), fun ht => ⟨fun rel ⟨t, h, h'⟩ => ht.2.1 rel t h h', ht.2.2⟩⟩
  show Progress sys tools j w [[]] [] w1
  refine (hpr0.step hstep' ⟨_, .here _, trivial⟩ (by simp) (by simp) (by intro p m h; simp at h) ?_).addDir ?_ (by rw [List.append_nil]; exact hn) hi ⟨_, .here _, trivial⟩
  · intro ht
    rw [List.append_nil]
    exact clean_step hstep hkb ht.1 (by have := ht.2.1 [] _ (.here _) trivial; rwa [List.append_nil] at this) ht.2.2
  have hcwd : w1.cwd = w.cwd := by rw [hstep.untouched.rest]
  unfold Denotes
  rw [hcwd, List.append_nil, List.append_nil]
  exact resolve_grows hstep.grows hden

/-- The whole operation, if it is not a dry run. -/
theorem mirror_post {src dest : Str} {es : List (Str × Tree)} {names : List Str} {dirMode fileMode : Option Str} {check : Bool}
    (hord : Ordinary sys tools w) (hm : PlainModes env st) (hdry : env.dry = false)
    (hp : Tree.Proper (.dir es)) (hsize : Tree.Storable (.dir es)) (hl : Lands src dest names) :
    Post sys lost (uploadDir sys.sha512 src (.dir es) dest dirMode fileMode owner group check) env st w
      (fun r _ w' => r.success = true ∧ ∃ l, Denotes w (pathOf names) l ∧
          Kept sys tools (mirrorJob env st dirMode fileMode owner group names es w l) w w' ∧
          (Ordinary sys tools w' ∧ ∀ rel t, Tree.At (.dir es) rel t → Denotes w' (pathOf (names ++ rel)) (l ++ rel)) ∧
          ∀ rel t, Tree.At (.dir es) rel t → Mirrored sys (inForce env st { dirMode, owner, group }) (inForce env st { fileMode, owner, group }) w w' (l ++ rel) t)
      (fun w' => Same w w' ∨ ∃ l, Denotes w (pathOf names) l ∧ Kept sys tools (mirrorJob env st dirMode fileMode owner group names es w l) w w') := by
  obtain ⟨hdest, hnames⟩ := destOf_lands hl
  unfold uploadDir
  refine Post.operation (Post.bind (Post.ofRet rfl (Post.bind (Post.ofExcept (fun _ _ => ?_) (.inl rfl)))))
  rw [if_neg (by simp [Tree.isDir])]
  simp only [hdest]
  rw [destDirs_eq hp hnames, destFiles_eq hp hnames]
  -- the top directory
  have htop : (relDirs es).map (fun rel => pathOf (names ++ rel)) = pathOf names :: ((chosen Tree.isDir (places [] (.dir es))).map (·.1)).map fun rel => pathOf (names ++ rel) := by
    unfold relDirs
    rw [List.map_cons, List.append_nil]
  rw [htop, uploadDirs]
  have hm1 : PlainModes env { stack := st.stack, op := { hasNested := true }, shown := st.shown } := plainModes_congr (st := st) rfl hm
  refine Post.bind (Post.bind ((dir_step hord hm1 hdry false).mono ?_ ?_))
  · rintro r0 st1 w1 ⟨hst1, l, n, hden, hstep, hn, hi, hkb⟩
    let j : Job := mirrorJob env st dirMode fileMode owner group names es w l
    have hend : ∀ w', Kept sys tools j w w' → Same w w' ∨ ∃ l, Denotes w (pathOf names) l ∧
        Kept sys tools (mirrorJob env st dirMode fileMode owner group names es w l) w w' := fun w' h => .inr ⟨l, hden, h⟩
    have hpr1 : Progress sys tools j w [[]] [] w1 := top_progress hord hden hstep hn hi hkb
    refine Post.bind (Post.addNested (fun st2 hst2 => ?_) (hend _ hpr1.kept))
    refine (dirs_post (j := j) (st := st) hdry hm rfl (fun ht => ht.1) _ (hst2.trans hst1) hpr1 (relDirs_ordered es) (List.nodup_cons.mp (relDirs_nodup hp)).2 ?_ ?_).mono ?_ hend
    · intro r hr
      rw [List.mem_singleton]
      rintro rfl
      exact (List.nodup_cons.mp (relDirs_nodup hp)).1 hr
    · intro r hr
      obtain ⟨t, h1, h2⟩ := relDirs_mem.mp (List.mem_cons_of_mem _ hr)
      refine ⟨⟨t, h1, transferred_dir h2⟩, fun n hn => ?_⟩
      rcases List.mem_append.mp hn with hn | hn
      · exact hnames n hn
      · exact at_names hp h1 n hn
    · rintro _ st3 w3 ⟨hst3, ds, hall, honly, hpr3⟩
      have hds : ∀ r, r ∈ ds ↔ r ∈ relDirs es := by
        intro r
        unfold relDirs
        rw [List.mem_cons]
        constructor
        · intro h
          rcases honly r h with h | h
          · exact .inl (List.mem_singleton.mp h)
          · exact .inr h
        · rintro (rfl | h)
          · exact hall _ (.inl (by simp))
          · exact hall _ (.inr h)
      refine Post.bind ((files_post (j := j) (st := st) hdry hm rfl (relFiles es) hst3 hpr3 (relFiles_nodup hp) ?_ ?_).mono ?_ hend)
      · intro x hx
        exact ⟨fun h => rel_disjoint hp ((hds _).mp h) (List.mem_map.mpr ⟨x, hx, rfl⟩), by simp⟩
      · intro x hx
        obtain ⟨h1, h2⟩ := relFiles_mem.mp hx
        obtain ⟨p, m, he, hpm⟩ := relFiles_parent hx
        refine ⟨h2, fun h => ⟨_, h1, h⟩, ?_, ⟨p, m, he, (hds _).mpr hpm⟩, fun n hn => ?_, fun b hb => ?_⟩
        · rintro t rfl ht ⟨u, hu, hut⟩
          rw [at_unique hp hu h1] at hut
          exact ht hut
        · rcases List.mem_append.mp hn with hn | hn
          · exact hnames n hn
          · exact at_names hp h1 n hn
        · refine hsize x.1 b ?_
          obtain ⟨rel, t⟩ := x
          cases t with
          | file c => cases hb; exact .inl h1
          | fileLink c => cases hb; exact .inr h1
          | dir => cases hb
          | dirLink => cases hb
          | special => cases hb
      · rintro _ st4 w4 ⟨_, fs, hfs, hpr4⟩
        refine Post.returned (Post.succeed (fun r st5 _ hr => ⟨hend _ hpr4.kept, ?_⟩) (hend _ hpr4.kept))
        rintro _ ⟨⟩ _
        refine ⟨hr, l, hden, hpr4.kept, ⟨hpr4.ordinary, fun rel t hat => ?_⟩, fun rel t hat => ?_⟩
        · cases hd : t.isDir with
          | true => exact hpr4.res rel ((hds _).mpr (relDirs_mem.mpr ⟨t, hat, hd⟩))
          | false =>
            have hx : (rel, t) ∈ relFiles es := relFiles_mem.mpr ⟨hat, hd⟩
            obtain ⟨p, m, he, hpm⟩ := relFiles_parent hx
            refine hpr4.child ((hds _).mpr hpm) he fun n hn => ?_
            rcases List.mem_append.mp hn with hn | hn
            · exact hnames n hn
            · exact at_names hp hat n hn
        cases hd : t.isDir with
        | true =>
          have := hpr4.dirs rel ((hds _).mpr (relDirs_mem.mpr ⟨t, hat, hd⟩))
          cases t with
          | dir => exact this
          | dirLink => exact this
          | file => cases hd
          | fileLink => cases hd
          | special => cases hd
        | false => exact hpr4.files (rel, t) (hfs _ (.inr (relFiles_mem.mpr ⟨hat, hd⟩)))
  · rintro w1 (h | ⟨l, hden, hstep, hkb⟩)
    · exact .inl h
    · let j : Job := mirrorJob env st dirMode fileMode owner group names es w l
      have hstep' : Step sys tools (j.place ++ []) w w1 := by rw [List.append_nil]; exact hstep
      have hpr0 : Progress sys tools j w [] [] w :=
        ⟨hord, .refl _, ⟨fun _ _ => rfl, rfl⟩, (by intro r h; cases h), (by intro r h; cases h), (by intro r h; cases h),
          (by intro r h; cases h), (by intro p m h; exact absurd rfl h), fun ht => ⟨fun rel ⟨t, h, h'⟩ => ht.2.1 rel t h h', ht.2.2⟩⟩
      refine .inr ⟨l, hden, (hpr0.step hstep' ⟨_, .here _, trivial⟩ (by simp) (by simp) (by intro p m h; simp at h) ?_).kept⟩
      intro ht
      rw [List.append_nil]
      exact clean_step hstep hkb ht.1 (by have := ht.2.1 [] _ (.here _) trivial; rwa [List.append_nil] at this) ht.2.2

end
end Verif.Ops
