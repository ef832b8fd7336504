/-
What whole file operations do to a host.
-/
import Verif.Ops.LinkLemmas
import Verif.Ops.SaveLemmas

namespace Verif.Ops

open Script Remote
open Client (Prog direct lostConnection)
open Wire (Packet)

section
variable {sys : Sys} {lost : Nat → Option Bool} {env : Env} {st : St} {w w' : World}
variable {tools : Tools} {path target : Str} {l : Loc} {n : Node} {mode owner group : Option Str} {present touch check : Bool}

theorem Effective.owned {want attr : Settings} (he : Effective w want attr) (h : Owned w attr n) : OwnedBy w want n := by
  refine ⟨fun u hu => ?_, fun g hg => ?_⟩
  · have := he.owner
    rw [hu] at this
    obtain ⟨e, h1, h2⟩ := this
    exact ⟨e, h1, h.1 e (denotes_mem h1) h2⟩
  · have := he.group
    rw [hg] at this
    obtain ⟨e, h1, h2⟩ := this
    exact ⟨e, h1, h.2 e (denotes_gmem h1) h2⟩

/-- The settings in force for `directory`, `file` and `link`. -/
abbrev dirArgs (mode owner group : Option Str) : Settings := { dirMode := mode, owner, group }
abbrev fileArgs (mode owner group : Option Str) : Settings := { fileMode := mode, owner, group }
abbrev linkArgs (owner group : Option Str) : Settings := { owner, group }

/-- What `directory` achieves. -/
def DirectoryGoal (env : Env) (st : St) (path : Str) (mode owner group : Option Str) (w w' : World) : Prop :=
  ∃ attr t l, Effective w (inForce env st (dirArgs mode owner group)) attr ∧ Modes (dirArgs mode owner group) (inForce env st (dirArgs mode owner group)) attr
    ∧ attr.dirMode = some t ∧ ModeText (octalValue t) t ∧ octalValue t < 4096
    ∧ resolve w.fs w.cwd path false = .ok l ∧ DirDone path t attr w l w'
    ∧ ∃ m, (inForce env st (dirArgs mode owner group)).dirMode = some m ∧ Py.parseInt 8 m = some (octalValue t : Int)

/-- What it can leave behind. -/
def DirectoryLeft (env : Env) (st : St) (path : Str) (present : Bool) (mode owner group : Option Str) (w w' : World) : Prop :=
  Same w w' ∨ (present = true ∧ ∃ attr t l, Modes (dirArgs mode owner group) (inForce env st (dirArgs mode owner group)) attr ∧ attr.dirMode = some t
      ∧ resolve w.fs w.cwd path false = .ok l ∧ DirLeft path t w l w')
    ∨ (present = false ∧ ∃ l n k s, resolve w.fs w.cwd path false = .ok l ∧ w.fs l = some n ∧ w' = { w with fs := removeMost w.fs l k, started := s })

theorem directory_post (hord : Ordinary sys tools w) (hm : PlainModes env st) :
    Post sys lost (directory path present touch mode owner group check) env st w
      (fun r _ w' => ((r.success = true → env.dry = false → (present = true → DirectoryGoal env st path mode owner group w w')
          ∧ (present = false → TreeGone path w w')) ∧ DirectoryLeft env st path present mode owner group w w')
        ∧ (check = true → r.success = true)) (DirectoryLeft env st path present mode owner group w) := by
  refine managed hord.sane hm (.inl rfl) ?_
  intro attr st' ha h1 h2 h3 he hmo
  obtain ⟨m, i, t, hmm, hi, hat, ht⟩ := he.dir
  cases present with
  | true =>
    refine (directory_present hord ha he h1 h2 h3 ht hat (fun _ h => .inl h)
      (fun l w' hr h => .inr (.inl ⟨rfl, attr, t, l, hmo, hat, hr, h⟩))).mono ?_ (fun _ h => h)
    rintro r _ w' ⟨hq, hl⟩
    refine ⟨fun hs hd => ⟨fun _ => ?_, fun h => by cases h⟩, hl⟩
    obtain ⟨l, hr, hdone, hiv, hlt⟩ := hq hs hd
    subst hiv
    exact ⟨attr, t, l, he, hmo, hat, ht, hlt, hr, hdone, m, hmm, hi⟩
  | false =>
    refine (directory_absent hord ha h1 h2 h3 (fun _ h => .inl h) (fun l n k s hr hl => .inr (.inr ⟨rfl, l, n, k, s, hr, hl, rfl⟩))).mono ?_ (fun _ h => h)
    rintro r _ w' ⟨hq, hl⟩
    exact ⟨fun hs hd => ⟨fun h => (by cases h), fun _ => hq hs hd⟩, hl⟩

/-- What `file` achieves. -/
def FileGoal (env : Env) (st : St) (path : Str) (mode owner group : Option Str) (w w' : World) : Prop :=
  ∃ attr t l, Effective w (inForce env st (fileArgs mode owner group)) attr ∧ Modes (fileArgs mode owner group) (inForce env st (fileArgs mode owner group)) attr
    ∧ attr.fileMode = some t ∧ ModeText (octalValue t) t ∧ octalValue t < 4096
    ∧ resolve w.fs w.cwd path false = .ok l ∧ FileDone path t attr w l w'
    ∧ ∃ m, (inForce env st (fileArgs mode owner group)).fileMode = some m ∧ Py.parseInt 8 m = some (octalValue t : Int)

def FileRest (path : Str) (present : Bool) (w w' : World) : Prop :=
  Same w w' ∨ (present = true ∧ ∃ l, resolve w.fs w.cwd path false = .ok l ∧ FileLeft path w l w')
    ∨ (present = false ∧ ∃ l n s, resolve w.fs w.cwd path false = .ok l ∧ w.fs l = some n ∧ n.kind ≠ .dir ∧ w' = { w.set l none with started := s })

theorem file_post (hord : Ordinary sys tools w) (hm : PlainModes env st) :
    Post sys lost (file path present touch mode owner group check) env st w
      (fun r _ w' => ((r.success = true → env.dry = false → (present = true → FileGoal env st path mode owner group w w')
          ∧ (present = false → Gone path w w')) ∧ FileRest path present w w')
        ∧ (check = true → r.success = true)) (FileRest path present w) := by
  refine managed hord.sane hm (.inl rfl) ?_
  intro attr st' ha h1 h2 h3 he hmo
  obtain ⟨m, i, t, hmm, hi, hat, ht⟩ := he.file
  cases present with
  | true =>
    refine (file_present hord ha he h1 h2 h3 ht hat (fun _ h => .inl h)
      (fun l w' hr h => .inr (.inl ⟨rfl, l, hr, h⟩))).mono ?_ (fun _ h => h)
    rintro r _ w' ⟨hq, hl⟩
    refine ⟨fun hs hd => ⟨fun _ => ?_, fun h => by cases h⟩, hl⟩
    obtain ⟨l, hr, hdone, hiv, hlt⟩ := hq hs hd
    subst hiv
    exact ⟨attr, t, l, he, hmo, hat, ht, hlt, hr, hdone, m, hmm, hi⟩
  | false =>
    refine (file_absent hord ha h1 h2 h3 (fun _ h => .inl h) (fun l n s hr hl hk => .inr (.inr ⟨rfl, l, n, s, hr, hl, hk, rfl⟩))).mono ?_ (fun _ h => h)
    rintro r _ w' ⟨hq, hl⟩
    exact ⟨fun hs hd => ⟨fun h => (by cases h), fun _ => hq hs hd⟩, hl⟩

/-- What `link` achieves. -/
def LinkGoal (env : Env) (st : St) (path target : Str) (owner group : Option Str) (w w' : World) : Prop :=
  ∃ attr l, Effective w (inForce env st (linkArgs owner group)) attr ∧ resolve w.fs w.cwd path false = .ok l ∧ LinkDone path target attr w l w'

def LinkRest (path target : Str) (present : Bool) (w w' : World) : Prop :=
  Same w w' ∨ (present = true ∧ ∃ l, resolve w.fs w.cwd path false = .ok l ∧ LinkLeft path target w l w')
    ∨ (present = false ∧ ∃ l n s, resolve w.fs w.cwd path false = .ok l ∧ w.fs l = some n ∧ n.kind ≠ .dir ∧ w' = { w.set l none with started := s })

theorem link_post (hord : Ordinary sys tools w) (hm : PlainModes env st) (hpl : Plain target) (hdir : Direct w path)
    (hnd : present = true → HasTarget w path target ∨ NotToDirectory w path) :
    Post sys lost (link path target present touch owner group check) env st w
      (fun r _ w' => ((r.success = true → env.dry = false → (present = true → LinkGoal env st path target owner group w w')
          ∧ (present = false → Gone path w w')) ∧ LinkRest path target present w w')
        ∧ (check = true → r.success = true)) (LinkRest path target present w) := by
  by_cases hne : target = []
  · subst hne
    refine Post.operation ?_
    refine Post.bind (Post.ofExcept (fun _ _ => ?_) (.inl rfl))
    rw [if_pos rfl]
    exact Post.raise (.inl rfl)
  · have hlink : link path target present touch owner group check = operation check (do
        Op.ofExcept (checkAbsolutePath path p!"path")
        returned (withDefaults { owner, group } (linkBody path target present touch))) := by
      unfold link; simp only [if_neg hne]
    rw [hlink]
    refine managed hord.sane hm (.inl rfl) ?_
    intro attr st' ha h1 h2 h3 he hmo
    cases present with
    | true =>
      refine (link_present hord ha hdir (hnd rfl) hpl hne he h1 h2 h3 (fun _ h => .inl h)
        (fun l w' hr h => .inr (.inl ⟨rfl, l, hr, h⟩))).mono ?_ (fun _ h => h)
      rintro r _ w' ⟨hq, hl⟩
      refine ⟨fun hs hd => ⟨fun _ => ?_, fun h => by cases h⟩, hl⟩
      obtain ⟨l, hr, hdone⟩ := hq hs hd
      exact ⟨attr, l, he, hr, hdone⟩
    | false =>
      refine (link_absent hord ha h1 h2 h3 (fun _ h => .inl h) (fun l n s hr hl hk => .inr (.inr ⟨rfl, l, n, s, hr, hl, hk, rfl⟩))).mono ?_ (fun _ h => h)
      rintro r _ w' ⟨hq, hl⟩
      exact ⟨fun hs hd => ⟨fun h => (by cases h), fun _ => hq hs hd⟩, hl⟩

/-- What saving content achieves. -/
def SaveGoal (sys : Sys) (content : Bytes) (env : Env) (st : St) (path : Str) (mode owner group : Option Str) (w w' : World) : Prop :=
  ∃ attr l i m, Effective w (inForce env st (fileArgs mode owner group)) attr ∧ Modes (fileArgs mode owner group) (inForce env st (fileArgs mode owner group)) attr
    ∧ (inForce env st (fileArgs mode owner group)).fileMode = some m ∧ Py.parseInt 8 m = some i ∧ 0 ≤ i
    ∧ resolve w.fs w.cwd path false = .ok l ∧ SaveDone sys content path i attr w l w'

def SaveRest (size : Nat) (path : Str) (w w' : World) : Prop :=
  Same w w' ∨ ∃ l, resolve w.fs w.cwd path false = .ok l ∧ WasFile w l ∧ SaveLeft size path w l w'

theorem save_post {content : Content} (hord : Ordinary sys tools w) (hm : PlainModes env st) {bytes : Bytes} (hc : content.encode = .ok bytes) :
    ∀ st', st'.stack = st.stack → st'.op.hasNested = false → st'.op.initial = none → st'.op.final = none → isAbs path = true →
    Post sys lost (saveContent sys.sha512 content path mode owner group) env st' w
      (fun r _ w' => (r.success = true → env.dry = false → SaveGoal sys bytes env st path mode owner group w w') ∧ SaveRest bytes.length path w w')
      (SaveRest bytes.length path w) := by
  intro st1 hst h1 h2 h3 ha
  unfold saveContent
  rw [hc]
  refine Post.bind (Post.ofExcept ?_ (.inl rfl))
  rintro _ ⟨⟩
  refine Post.withDefaults hord.sane (.inl rfl) ?_
  intro q' c rest r hq hs hr
  have hm' : PlainModes env st1 := by simpa only [PlainModes, inForce, hst] using hm
  have hf : inForce env st1 (fileArgs mode owner group) = inForce env st (fileArgs mode owner group) := by simp only [inForce, hst]
  obtain ⟨he, hmo⟩ := effective hm' hq hs hr
  rw [hf] at he hmo
  obtain ⟨m, i, t, hmm, hi, hat, ht⟩ := he.file
  refine (save_body (st := { st1 with stack := r :: st1.stack }) (L := SaveRest bytes.length path w) hord ha he h1 h2 h3 ht hat (fun _ h => .inl h) (fun l w' hr hf h => .inr ⟨l, hr, hf, h⟩)).mono ?_ (fun _ h => h)
  rintro r _ w' ⟨hq, hl⟩
  refine ⟨fun hs hd => ?_, hl⟩
  obtain ⟨l, hr, hi0, hdone⟩ := hq hs hd
  exact ⟨_, l, i, m, he, hmo, hmm, hi, hi0, hr, hdone⟩

theorem isAbs_pathJoin {a b : Str} (h : isAbs a = true) : isAbs (pathJoin a b) = true := by
  cases a with
  | nil => cases h
  | cons c r =>
    have hc : c = 47 := by simpa [isAbs] using h
    subst hc
    unfold pathJoin
    split
    · rfl
    · split <;> rfl

theorem isAbs_destOf {src dest : Str} (h : isAbs dest = true) : isAbs (destOf src dest) = true := by
  unfold destOf
  split
  · exact isAbs_pathJoin h
  · exact h

/-- What storing achieves, as a result of the whole operation. -/
def StoreGoal (sys : Sys) (source : Except Exn Bytes) (env : Env) (st : St) (path : Str) (mode owner group : Option Str) (w w' : World) : Prop :=
  ∃ bytes, source = .ok bytes ∧ SaveGoal sys bytes env st path mode owner group w w'

def StoreRest (source : Except Exn Bytes) (path : Str) (w w' : World) : Prop :=
  Same w w' ∨ ∃ bytes, source = .ok bytes ∧ SaveRest bytes.length path w w'

theorem store_post {op : Op OpResult} {source : Except Exn Bytes} (hop : Stores sys.sha512 mode owner group check op path source)
    (hord : Ordinary sys tools w) (hm : PlainModes env st) :
    Post sys lost op env st w
      (fun r _ w' => ((r.success = true → env.dry = false → StoreGoal sys source env st path mode owner group w w')
          ∧ StoreRest source path w w') ∧ (check = true → r.success = true)) (StoreRest source path w) := by
  have key : ∀ {content : Content} {bytes : Bytes} {path : Str}, content.encode = .ok bytes → source = .ok bytes → isAbs path = true →
      Post sys lost (returned (saveContent sys.sha512 content path mode owner group)) env { st with op := {} } w
        (fun r st' w' => StoreRest source path w w' ∧ ∀ res, r = some res → (check = true → res.success = true) →
          ((res.success = true → env.dry = false → StoreGoal sys source env st path mode owner group w w')
            ∧ StoreRest source path w w') ∧ (check = true → res.success = true)) (StoreRest source path w) := by
    intro content bytes path hc hs ha
    refine Post.returned ((save_post hord hm hc { st with op := {} } rfl rfl rfl rfl ha).mono ?_ (fun w' h => .inr ⟨bytes, hs, h⟩))
    rintro r st' w' ⟨h1, h2⟩
    refine ⟨.inr ⟨bytes, hs, h2⟩, ?_⟩
    rintro _ ⟨⟩ hc
    exact ⟨⟨fun h3 h4 => ⟨bytes, hs, h1 h3 h4⟩, .inr ⟨bytes, hs, h2⟩⟩, hc⟩
  cases hop with
  | content content dest =>
    refine Post.operation (Post.bind (Post.ofExcept (fun _ ha => ?_) (.inl rfl)))
    cases hc : content.encode with
    | ok bytes => rw [← hc]; exact key hc hc (checkAbsolutePath_ok ha)
    | error e =>
      refine Post.returned ?_
      unfold saveContent
      rw [hc]
      exact Post.bind (Post.ofExcept (fun _ h => by cases h) (.inl rfl))
  | file src _ dest =>
    refine Post.operation (Post.bind (Post.ofExcept (fun _ ha => ?_) (.inl rfl)))
    refine Post.bind (Post.ofExcept (fun bytes hb => ?_) (.inl rfl))
    exact key rfl hb (isAbs_destOf (checkAbsolutePath_ok ha))
  | templateContent templ dest vars context host =>
    refine Post.operation (Post.bind (Post.ofExcept (fun _ ha => ?_) (.inl rfl)))
    refine Post.bind (Post.ofExcept (fun bytes hb => ?_) (.inl rfl))
    exact key rfl hb (checkAbsolutePath_ok ha)
  | template src templ dest vars context host =>
    refine Post.operation (Post.bind (Post.ofExcept (fun _ ha => ?_) (.inl rfl)))
    refine Post.bind (Post.ofExcept ?_ (.inl rfl))
    rintro _ ⟨⟩
    refine Post.bind (Post.ofExcept (fun bytes hb => ?_) (.inl rfl))
    exact key rfl hb (isAbs_destOf (checkAbsolutePath_ok ha))

/-- What holds however the operation ends. -/
theorem post_world {α : Type} {m : Op α} {Q : α → St → World → Prop} {P : World → Prop} (h : Post sys lost m env st w Q P)
    (hQ : ∀ a st' w', Q a st' w' → P w') : P (perform sys lost m env st w).2 := by
  obtain ⟨h1, h2⟩ := h.perform
  cases hr : (perform sys lost m env st w).1 with
  | ok a => obtain ⟨st', h⟩ := h1 a hr; exact hQ _ _ _ h
  | error e => exact h2 e hr

/-- What holds if it ends normally. -/
theorem post_ok {α : Type} {m : Op α} {Q : α → World → Prop} {E : World → Prop} (h : Post sys lost m env st w (fun a _ w' => Q a w') E) {a : α}
    (ha : (perform sys lost m env st w).1 = .ok a) : Q a (perform sys lost m env st w).2 :=
  (h.perform.1 a ha).elim fun _ h => h

end
end Verif.Ops
