/-
Helper lemmas about the dispatcher.
-/
import Verif.Remote.Spec
import Verif.Remote.FsLemmas
import Verif.Wire.Lemmas
import Verif.Py.NumLemmas

namespace Verif.Remote

open Wire (Packet Kind)

/-! ### Text -/

theorem Text.append {a b : Str} (ha : Text a) (hb : Text b) : Text (a ++ b) := by
  intro c hc
  rcases List.mem_append.mp hc with h | h
  · exact ha c h
  · exact hb c h

theorem text_natStr (n : Nat) : Text (Py.natStr 10 n) := by
  intro c hc
  have := Py.natStr_chars (b := 10) (by decide) (by decide) n c hc
  omega

theorem text_lit {s : Str} (h : (s.all fun c => decide (c < 0xD800)) = true) : Text s := by
  intro c hc
  have := List.all_eq_true.mp h c hc
  simp only [decide_eq_true_eq] at this
  omega

/-- Text that fits into one field. -/
def Ok60 (s : Str) : Prop := Text s ∧ s.length < 2 ^ 60

theorem Plain.ok60 {s : Str} (h : Plain s) : Ok60 s := ⟨h.1, by have := h.2; unfold Modest at this; omega⟩

theorem ok60_fits {s : Str} (h : Ok60 s) : Wire.Fits .str s ∧ Wire.Small .str s := ⟨h.1, h.2⟩

/-! ### Errors -/

/-- An OSError that the loop can report. -/
def OsExn (e : Exn) : Prop := ∃ n s m, e = .osError (some n) s m ∧ (Packet.osError n s m).Sendable

theorem sendable_osError {n : Int} {s m : Str} (h1 : -9223372036854775808 ≤ n ∧ n ≤ 9223372036854775807) (h2 : Ok60 s) (h3 : Ok60 m) :
    (Packet.osError n s m).Sendable :=
  ⟨⟨h1, h2.1, h3.1, trivial⟩, ⟨trivial, h2.2, h3.2, trivial⟩⟩

theorem OSErr.Sane.osExn {e : OSErr} (h : e.Sane) : OsExn e.exn :=
  ⟨_, _, _, rfl, sendable_osError h.errno h.strerror.ok60 h.msg.ok60⟩

/-- The errors of path resolution. -/
def PathErr (n : Int) : Prop := n = ENOENT ∨ n = ENOTDIR ∨ n = ELOOP ∨ n = EISDIR

theorem walkAux_err {fs : Loc → Option Node} {fo : Bool} {onLink : Loc → List Str → Except Int Loc}
    (hl : ∀ l c n, onLink l c = .error n → PathErr n) (cs : List Str) :
    ∀ loc n, walkAux fs fo onLink cs loc = .error n → PathErr n := by
  induction cs with
  | nil => intro loc n h; cases h
  | cons c r ih =>
    intro loc n h
    rw [walkAux_cons] at h
    split at h
    · cases h; exact .inl rfl
    · split at h
      · exact ih _ _ h
      · split at h
        · split at h
          · cases h
          · cases h; exact .inl rfl
        · split at h
          · cases h
          · exact hl _ _ _ h
        · exact ih _ _ h
    · cases h; exact .inr (.inl rfl)

theorem walk_err {fs : Loc → Option Node} {fo : Bool} (k : Nat) :
    ∀ cs loc n, walk fs fo k cs loc = .error n → PathErr n := by
  induction k with
  | zero => exact walkAux_err fun _ _ n h => by cases h; exact .inr (.inr (.inl rfl))
  | succ k ih => exact walkAux_err fun l c n h => ih c l n h

theorem resolve_err {fs : Loc → Option Node} {cwd : Loc} {path : Str} {fo : Bool} {n : Int}
    (h : resolve fs cwd path fo = .error n) : PathErr n := by
  unfold resolve at h
  split at h
  · cases h; exact .inl rfl
  · exact walk_err _ _ _ _ h

theorem lookup_err {fs : Loc → Option Node} {cwd : Loc} {path : Str} {fo : Bool} {n : Int}
    (h : lookup fs cwd path fo = .error n) : PathErr n := by
  unfold lookup at h
  split at h
  · cases h; rename_i h'; exact resolve_err h'
  · split at h
    · cases h; exact .inl rfl
    · cases h

theorem pathErr_lits {n : Int} (hn : PathErr n) :
    (-9223372036854775808 ≤ n ∧ n ≤ 9223372036854775807) ∧ ((strerror n).all fun c => decide (c < 0xD800)) = true
    ∧ (strerror n).length < 100 ∧ ((Py.intStr n).all fun c => decide (c < 0xD800)) = true ∧ (Py.intStr n).length < 100 := by
  rcases hn with rfl | rfl | rfl | rfl <;> decide

theorem osErr_osExn {n : Int} {path : Str} (hn : PathErr n) (hp : Plain path) : OsExn (osErr n path).exn := by
  obtain ⟨h1, h2, h3, h4, h5⟩ := pathErr_lits hn
  have hm := hp.2
  unfold Modest at hm
  refine ⟨_, _, _, rfl, sendable_osError h1 ⟨text_lit h2, by simp only [osErr]; omega⟩ ⟨?_, ?_⟩⟩
  · exact ((((text_lit (by decide)).append (text_lit h4)).append (text_lit (by decide))).append (text_lit h2) |>.append
      (text_lit (by decide)) |>.append hp.1 |>.append (text_lit (by decide)))
  · simp only [osErr, List.length_append, List.length_cons, List.length_nil]
    omega

theorem guardCall_err {sys : Sys} (hs : sys.Sane) {w : World} {path : Str} {c : Call} {e : Exn}
    (h : guardCall sys w path c = .error e) : (hasNul path = true ∧ e = nulError) ∨ OsExn e := by
  unfold guardCall at h
  split at h
  · rename_i hn; cases h; exact .inl ⟨hn, rfl⟩
  · split at h
    · rename_i e' he; cases h; exact .inr (hs.fault _ _ _ he).osExn
    · cases h

theorem hasNul_iff {s : Str} : hasNul s = true ↔ ¬ NoNul s := by
  unfold hasNul NoNul
  simp

theorem OsExn.text {e : Exn} (h : OsExn e) : Ok60 (osErrorText e) := by
  obtain ⟨n, s, m, rfl, h1, h2⟩ := h
  exact ⟨h1.2.2.1, h2.2.2.1⟩

/-! ### What is sent -/

theorem sendable_invalidField {f m : Str} (h1 : Ok60 f) (h2 : Ok60 m) : (Packet.invalidField f m).Sendable :=
  ⟨⟨h1.1, h2.1, trivial⟩, ⟨h1.2, h2.2, trivial⟩⟩

/-- The outcome of a handler is something the loop can send, and fits the request. -/
def GoodReply (p : Packet) : Reply → Prop
  | .answer _ q => q.Sendable ∧ Answers p q
  | .close => p = .exit
  | .raise e => Tame p → OsExn e

theorem good_invalid {p : Packet} {raw : Bytes} {f m : Str} (h1 : Ok60 f) (h2 : Ok60 m) :
    GoodReply p (.answer raw (.invalidField f m)) :=
  ⟨sendable_invalidField h1 h2, .inr (.inr rfl)⟩

theorem ok60_lit {s : Str} (h : (s.all fun c => decide (c < 0xD800)) = true) (hl : s.length < 1000) : Ok60 s :=
  ⟨text_lit h, by omega⟩

theorem ok60_around {a b s : Str} (ha : (a.all fun c => decide (c < 0xD800)) = true) (hla : a.length < 1000)
    (hb : (b.all fun c => decide (c < 0xD800)) = true) (hlb : b.length < 1000) (hs : Plain s) : Ok60 (a ++ s ++ b) := by
  refine ⟨Text.append (Text.append (text_lit ha) hs.1) (text_lit hb), ?_⟩
  have := hs.2
  unfold Modest at this
  simp only [List.length_append]
  omega

theorem resolveOct_err {s : Str} {e : Exn} (hs : Plain s) (h : resolveOct s = .error e) : Ok60 (valueErrorText e) := by
  unfold resolveOct at h
  split at h
  · cases h
  · cases h; exact ok60_around (by decide) (by decide) (by decide) (by decide) hs

theorem getpwnam_err {w : World} {s : Str} {e : Exn} (h : getpwnam w s = .error e) :
    (e = nulError ∧ hasNul s = true) ∨ e = .keyError := by
  unfold getpwnam at h
  split at h
  · rename_i hn; cases h; exact .inl ⟨rfl, hn⟩
  · split at h
    · cases h
    · cases h; exact .inr rfl

theorem getgrnam_err {w : World} {s : Str} {e : Exn} (h : getgrnam w s = .error e) :
    (e = nulError ∧ hasNul s = true) ∨ e = .keyError := by
  unfold getgrnam at h
  split at h
  · rename_i hn; cases h; exact .inl ⟨rfl, hn⟩
  · split at h
    · cases h
    · cases h; exact .inr rfl

theorem getpwnam_mem {w : World} {s : Str} {e : PwEntry} (h : getpwnam w s = .ok e) : e ∈ w.users ∧ e.name = s := by
  unfold getpwnam at h
  split at h
  · cases h
  · split at h
    · rename_i e' he
      cases h
      exact ⟨List.mem_of_find?_eq_some he, by simpa using List.find?_some he⟩
    · cases h

theorem getpwuid_mem {w : World} {i : Int} {e : PwEntry} (h : getpwuid w i = .ok e) : e ∈ w.users := by
  unfold getpwuid at h
  split at h
  · rename_i e' he; cases h; exact List.mem_of_find?_eq_some he
  · cases h

theorem getgrnam_mem {w : World} {s : Str} {e : GrEntry} (h : getgrnam w s = .ok e) : e ∈ w.groups ∧ e.name = s := by
  unfold getgrnam at h
  split at h
  · cases h
  · split at h
    · rename_i e' he
      cases h
      exact ⟨List.mem_of_find?_eq_some he, by simpa using List.find?_some he⟩
    · cases h

theorem getgrgid_mem {w : World} {i : Int} {e : GrEntry} (h : getgrgid w i = .ok e) : e ∈ w.groups := by
  unfold getgrgid at h
  split at h
  · rename_i e' he; cases h; exact List.mem_of_find?_eq_some he
  · cases h

theorem resolveUser_err {w : World} {s : Str} {e : Exn} (hs : Plain s) (h : resolveUser w s = .error e) :
    Ok60 (valueErrorText e) := by
  unfold resolveUser at h
  split at h
  · cases h
  · split at h
    · cases h; exact ok60_around (by decide) (by decide) (by decide) (by decide) hs
    · split at h
      · cases h
      · cases h; exact ok60_around (by decide) (by decide) (by decide) (by decide) hs
  · cases h
    rename_i e' hk he
    rcases getpwnam_err he with ⟨rfl, _⟩ | rfl
    · exact ok60_lit (by decide) (by decide)
    · exact absurd rfl hk

theorem resolveGroup_err {w : World} {s : Str} {e : Exn} (hs : Plain s) (h : resolveGroup w s = .error e) :
    Ok60 (valueErrorText e) := by
  unfold resolveGroup at h
  split at h
  · cases h
  · split at h
    · cases h; exact ok60_around (by decide) (by decide) (by decide) (by decide) hs
    · split at h
      · cases h
      · cases h; exact ok60_around (by decide) (by decide) (by decide) (by decide) hs
  · cases h
    rename_i e' hk he
    rcases getgrnam_err he with ⟨rfl, _⟩ | rfl
    · exact ok60_lit (by decide) (by decide)
    · exact absurd rfl hk

theorem optional_err {α β} {f : α → Except Exn β} {o : Option α} {e : Exn} (h : optional f o = .error e) :
    ∃ a, o = some a ∧ f a = .error e := by
  unfold optional at h
  split at h
  · cases h
  · rename_i a
    split at h
    · cases h
    · rename_i e' he; cases h; exact ⟨a, rfl, he⟩

theorem optional_ok {α β} {f : α → Except Exn β} {o : Option α} {b : Option β} (h : optional f o = .ok b) :
    (o = none ∧ b = none) ∨ ∃ a b', o = some a ∧ b = some b' ∧ f a = .ok b' := by
  unfold optional at h
  split at h
  · cases h; exact .inl ⟨rfl, rfl⟩
  · rename_i a
    split at h
    · rename_i b' hb; cases h; exact .inr ⟨a, b', rfl, rfl, hb⟩
    · cases h

/-! ### Calls -/

theorem osStat_err {sys : Sys} (hs : sys.Sane) {w : World} {path : Str} {fo : Bool} {e : Exn} (hp : Plain path)
    (h : osStat sys w path fo = .error e) : (hasNul path = true ∧ e = nulError) ∨ OsExn e := by
  unfold osStat at h
  split at h
  · cases h; rename_i h'; exact guardCall_err hs h'
  · split at h
    · cases h; rename_i h'; exact .inr (osErr_osExn (lookup_err h') hp)
    · cases h

theorem osStat_node {sys : Sys} {w : World} {path : Str} {fo : Bool} {n : Node} (h : osStat sys w path fo = .ok n) :
    ∃ l, lookup w.fs w.cwd path fo = .ok (l, n) := by
  unfold osStat at h
  split at h
  · cases h
  · split at h
    · cases h
    · rename_i l n' hl; cases h; exact ⟨l, hl⟩

theorem osRead_err {sys : Sys} (hs : sys.Sane) {w : World} {path : Str} {e : Exn} (hp : Plain path)
    (h : osRead sys w path = .error e) : (hasNul path = true ∧ e = nulError) ∨ OsExn e := by
  unfold osRead at h
  split at h
  · cases h; rename_i h'; exact guardCall_err hs h'
  · split at h
    · cases h; rename_i h'; exact .inr (osErr_osExn (lookup_err h') hp)
    · split at h
      · cases h; exact .inr (osErr_osExn (.inr (.inr (.inr rfl))) hp)
      · split at h
        · cases h; rename_i h'; exact .inr (hs.fault _ _ _ h').osExn
        · cases h

theorem osRead_length {sys : Sys} {w : World} (hw : w.Sane) {path : Str} {c : Bytes} (h : osRead sys w path = .ok c) :
    Modest c.length := by
  unfold osRead at h
  split at h
  · cases h
  · split at h
    · cases h
    · rename_i l n hl
      have hn := hw.node _ _ (lookup_ok hl).2
      split at h
      · cases h
      · split at h
        · cases h
        · cases h
          split
          · rename_i c' hk; exact hn.content _ hk
          · unfold Modest; simp

theorem World.Sane.set {w : World} (hw : w.Sane) {l : Loc} {n : Node} (hn : n.Sane) : (w.set l (some n)).Sane := by
  refine { hw with node := ?_ }
  intro q m hq
  simp only [World.set, setNode] at hq
  split at hq
  · cases hq; exact hn
  · exact hw.node _ _ hq

theorem inheritGid_ok {w : World} (hw : w.Sane) (l : Loc) {g : Nat} (hg : IdOk g) : IdOk (inheritGid w.fs l g) := by
  unfold inheritGid
  split
  · rename_i d hd
    split
    · exact (hw.node _ _ hd).gid
    · exact hg
  · exact hg

theorem Modest.take {c : Bytes} (h : Modest c.length) (k : Nat) : Modest (c.take k).length := by
  unfold Modest at *
  rw [List.length_take]
  omega

theorem osWrite_sane {sys : Sys} (hs : sys.Sane) {w : World} (hw : w.Sane) {path : Str} {c : Bytes} (hp : Plain path)
    (hc : Modest c.length) {r : Except Exn PUnit} {w' : World} (h : osWrite sys w path c = (r, w')) :
    w'.Sane ∧ ∀ e, r = .error e → (hasNul path = true ∧ e = nulError) ∨ OsExn e := by
  unfold osWrite at h
  split at h
  · cases h
    rename_i h'
    exact ⟨hw, fun e he => by cases he; exact guardCall_err hs h'⟩
  · split at h
    · cases h
      rename_i h'
      exact ⟨hw, fun e he => by cases he; exact .inr (osErr_osExn (resolve_err h') hp)⟩
    · rename_i l hl
      split at h
      · have hnode : ∀ c : Bytes, Modest c.length → Node.Sane
            { kind := .file c, perm := 0o600, uid := w.uid, gid := inheritGid w.fs l w.gid, mtime := w.clock, ctime := w.clock } :=
          fun c hc => ⟨(by decide : (0o600 : Nat) < 4096), hw.uid, inheritGid_ok hw l hw.gid, hw.clock, hw.clock,
            fun _ h => by cases h; exact hc, fun _ h => by cases h⟩
        simp only at h
        split at h
        · cases h
          rename_i e he
          exact ⟨hw.set (hnode _ (hc.take _)), fun e' he' => by cases he'; exact .inr (hs.fault _ _ _ he).osExn⟩
        · cases h
          exact ⟨hw.set (hnode _ hc), fun e' he' => by cases he'⟩
      · rename_i n hn
        have hns := hw.node _ _ hn
        split at h
        · cases h
          exact ⟨hw, fun e he => by cases he; exact .inr (osErr_osExn (.inr (.inr (.inr rfl))) hp)⟩
        · have hnode : ∀ c : Bytes, Modest c.length → Node.Sane { n with kind := .file c, mtime := w.clock, ctime := w.clock } :=
            fun c hc => ⟨hns.perm, hns.uid, hns.gid, hw.clock, hw.clock, fun _ h => by cases h; exact hc, fun _ h => by cases h⟩
          simp only at h
          split at h
          · cases h
            rename_i e he
            exact ⟨hw.set (hnode _ (hc.take _)), fun e' he' => by cases he'; exact .inr (hs.fault _ _ _ he).osExn⟩
          · cases h
            exact ⟨hw.set (hnode _ hc), fun e' he' => by cases he'⟩
        · split at h
          · cases h
            rename_i e he
            exact ⟨hw, fun e' he' => by cases he'; exact .inr (hs.fault _ _ _ he).osExn⟩
          · cases h
            exact ⟨hw, fun e' he' => by cases he'⟩

theorem fitsCInt_iff {i : Int} : fitsCInt i = true ↔ -2147483648 ≤ i ∧ i ≤ 2147483647 := by
  simp [fitsCInt]

theorem emod_lt (i : Int) : (i % 4096).toNat < 4096 := by omega

theorem osChmod_sane {sys : Sys} (hs : sys.Sane) {w : World} (hw : w.Sane) {path : Str} {m : Int} (hp : Plain path)
    {r : Except Exn PUnit} {w' : World} (h : osChmod sys w path m = (r, w')) :
    w'.Sane ∧ ∀ e, r = .error e → (e = .overflowError ∧ fitsCInt m = false) ∨ (hasNul path = true ∧ e = nulError) ∨ OsExn e := by
  unfold osChmod at h
  split at h
  · cases h
    rename_i hm
    exact ⟨hw, fun e he => by cases he; exact .inl ⟨rfl, by simpa using hm⟩⟩
  · split at h
    · cases h
      rename_i h'
      exact ⟨hw, fun e he => by cases he; exact .inr (guardCall_err hs h')⟩
    · split at h
      · cases h
        rename_i h'
        exact ⟨hw, fun e he => by cases he; exact .inr (.inr (osErr_osExn (lookup_err h') hp))⟩
      · cases h
        rename_i l n hl
        have hn := hw.node _ _ (lookup_ok hl).2
        exact ⟨hw.set ⟨emod_lt _, hn.uid, hn.gid, hn.mtime, hw.clock, hn.content, hn.target⟩, fun e he => by cases he⟩

theorem chownPerm_lt {n : Node} (h : n.perm < 4096) : chownPerm n < 4096 := by
  unfold chownPerm
  split
  · exact h
  · split
    · exact Nat.lt_of_le_of_lt Nat.and_le_left h
    · exact Nat.lt_of_le_of_lt Nat.and_le_left h

theorem osChown_sane {sys : Sys} (hs : sys.Sane) {w : World} (hw : w.Sane) {path : Str} {u g : Nat} (hp : Plain path)
    (hu : IdOk u) (hg : IdOk g) {r : Except Exn PUnit} {w' : World} (h : osChown sys w path u g = (r, w')) :
    w'.Sane ∧ ∀ e, r = .error e → (hasNul path = true ∧ e = nulError) ∨ OsExn e := by
  unfold osChown at h
  split at h
  · cases h
    rename_i h'
    exact ⟨hw, fun e he => by cases he; exact guardCall_err hs h'⟩
  · split at h
    · cases h
      rename_i h'
      exact ⟨hw, fun e he => by cases he; exact .inr (osErr_osExn (lookup_err h') hp)⟩
    · cases h
      rename_i l n hl
      have hn := hw.node _ _ (lookup_ok hl).2
      exact ⟨hw.set ⟨chownPerm_lt hn.perm, hu, hg, hn.mtime, hw.clock, hn.content, hn.target⟩, fun e he => by cases he⟩

/-! ### Handlers -/

theorem resolveUser_ids {w : World} (hw : w.Sane) {s : Str} {u g : Nat} (h : resolveUser w s = .ok (u, g)) : IdOk u ∧ IdOk g := by
  unfold resolveUser at h
  split at h
  · rename_i pw hpw
    cases h
    have := hw.users _ (getpwnam_mem hpw).1
    exact ⟨this.2.2.2.2.1, this.2.2.2.2.2.1⟩
  · split at h
    · cases h
    · split at h
      · rename_i pw hpw
        cases h
        have := hw.users _ (getpwuid_mem hpw)
        exact ⟨this.2.2.2.2.1, this.2.2.2.2.2.1⟩
      · cases h
  · cases h

theorem resolveGroup_ids {w : World} (hw : w.Sane) {s : Str} {g : Nat} (h : resolveGroup w s = .ok g) : IdOk g := by
  unfold resolveGroup at h
  split at h
  · rename_i gr hgr
    cases h
    exact (hw.groups _ (getgrnam_mem hgr).1).2.2.2.1
  · split at h
    · cases h
    · split at h
      · rename_i gr hgr
        cases h
        exact (hw.groups _ (getgrgid_mem hgr)).2.2.2.1
      · cases h
  · cases h

theorem osChdir_err {sys : Sys} (hs : sys.Sane) {w : World} {d : Loc} {path : Str} {e : Exn} (hp : Plain path)
    (h : osChdir sys w d path = .error e) : (hasNul path = true ∧ e = nulError) ∨ OsExn e := by
  unfold osChdir at h
  split at h
  · cases h; rename_i h'; exact guardCall_err hs h'
  · split at h
    · cases h; rename_i h'; exact .inr (osErr_osExn (lookup_err h') hp)
    · split at h
      · cases h
      · cases h; exact .inr (osErr_osExn (.inr (.inl rfl)) hp)

theorem osIsdir_noNul {sys : Sys} {w : World} {path : Str} (h : osIsdir sys w path = true) : hasNul path = false := by
  unfold osIsdir osStat guardCall at h
  cases hn : hasNul path with
  | false => rfl
  | true => simp [hn] at h

theorem startChild_err {sys : Sys} (hs : sys.Sane) {w : World} {cwd : Option Str} {um : Int} {u g : Option Nat} {e : Exn}
    (hc : ∀ c ∈ cwd, Plain c) (hn : ∀ c ∈ cwd, hasNul c = false) (h : startChild sys w cwd um u g = .error e) :
    e = .subprocessError preexecMsg ∨ OsExn e := by
  unfold startChild at h
  split at h
  · cases h
    rename_i h'
    obtain ⟨c, rfl, hc'⟩ := optional_err h'
    rcases osChdir_err hs (hc c rfl) hc' with ⟨h1, _⟩ | h1
    · rw [hn c rfl] at h1; cases h1
    · exact .inr h1
  · split at h
    · cases h; exact .inl rfl
    · split at h
      · cases h; exact .inl rfl
      · split at h
        · cases h; exact .inl rfl
        · split at h
          · cases h
          · split at h
            · cases h; exact .inl rfl
            · cases h

theorem sendable_processCompleted {o e : Option Bytes} {c : Int} (ho : ∀ x ∈ o, x.length < 2 ^ 60) (he : ∀ x ∈ e, x.length < 2 ^ 60)
    (hc : -2147483648 ≤ c ∧ c ≤ 2147483647) : (Packet.processCompleted o e c).Sendable :=
  ⟨⟨fun _ _ => trivial, fun _ _ => trivial, hc, trivial⟩, ⟨ho, he, trivial, trivial⟩⟩

theorem handleRun_good {sys : Sys} (hs : sys.Sane) {w : World} (hw : w.Sane) {command : List Str} {stdin : Option Bytes}
    {capture : Bool} {user group umask cwd : Option Str} (hu : ∀ x ∈ user, Plain x) (hg : ∀ x ∈ group, Plain x)
    (hm : ∀ x ∈ umask, Plain x) (hc : ∀ x ∈ cwd, Plain x) :
    GoodReply (.processRun command stdin capture user group umask cwd) (handleRun sys command stdin capture user group umask cwd w).1
    ∧ (handleRun sys command stdin capture user group umask cwd w).2.Sane := by
  unfold handleRun
  split
  · rename_i e h
    obtain ⟨a, rfl, ha⟩ := optional_err h
    exact ⟨good_invalid (ok60_lit (by decide) (by decide)) (resolveOct_err (hm a rfl) ha), hw⟩
  · split
    · rename_i e h
      obtain ⟨a, rfl, ha⟩ := optional_err h
      exact ⟨good_invalid (ok60_lit (by decide) (by decide)) (resolveUser_err (hu a rfl) ha), hw⟩
    · split
      · rename_i e h
        obtain ⟨a, rfl, ha⟩ := optional_err h
        exact ⟨good_invalid (ok60_lit (by decide) (by decide)) (resolveGroup_err (hg a rfl) ha), hw⟩
      · split
        · exact ⟨good_invalid (ok60_lit (by decide) (by decide)) (ok60_lit (by decide) (by decide)), hw⟩
        · rename_i hcwd
          split
          · exact ⟨fun ht => absurd rfl ht.1, hw⟩
          · split
            · rename_i hnul
              refine ⟨fun ht => ?_, hw⟩
              obtain ⟨a, ha, hna⟩ := List.any_eq_true.mp hnul
              exact absurd (ht.2 a ha) (hasNul_iff.mp hna)
            · simp only
              split
              · rename_i m h'
                refine ⟨⟨⟨⟨?_, trivial⟩, ⟨?_, trivial⟩⟩, .inl (by simp [expected, Packet.kind])⟩, hw⟩
                all_goals
                  rcases startChild_err hs hc (fun c hc' => by
                    subst hc'
                    simp only [Option.any_some, Bool.not_eq_eq_eq_not, Bool.not_true, Bool.not_eq_false] at hcwd
                    exact osIsdir_noNul hcwd) h' with h1 | ⟨n, s, m', h1, _⟩
                  · cases h1
                    first
                    | exact (ok60_lit (s := preexecMsg) (by decide) (by decide)).1
                    | exact (ok60_lit (s := preexecMsg) (by decide) (by decide)).2
                  · cases h1
              · rename_i e hne h'
                refine ⟨fun _ => ?_, hw⟩
                rcases startChild_err hs hc (fun c hc' => by
                  subst hc'
                  simp only [Option.any_some, Bool.not_eq_eq_eq_not, Bool.not_true, Bool.not_eq_false] at hcwd
                  exact osIsdir_noNul hcwd) h' with h1 | h1
                · exact absurd h1 (hne _)
                · exact h1
              · rename_i um u gi dir h'
                split
                · rename_i e _ he
                  exact ⟨fun _ => (hs.failed _ _ _ _ he).osExn, hw⟩
                · rename_i out err code w' he
                  have hd := hs.done _ _ _ _ _ _ he
                  have hw' : w'.Sane := by
                    rw [show w' = (ExecRes.done out err code, w').2 from rfl, ← he]
                    exact hs.world _ _ { hw with }
                  obtain ⟨h1, h2, h3⟩ := hd
                  unfold Modest at h1 h2
                  split
                  · exact ⟨⟨sendable_processCompleted (fun x hx => by cases hx; omega) (fun x hx => by cases hx; omega) h3, .inl (by simp [expected, Packet.kind])⟩, hw'⟩
                  · exact ⟨⟨sendable_processCompleted (fun x hx => by cases hx) (fun x hx => by cases hx) h3, .inl (by simp [expected, Packet.kind])⟩, hw'⟩

theorem ok60_ownerName {w : World} (hw : w.Sane) {u : Nat} (hu : IdOk u) : Ok60 (ownerName w u) := by
  unfold ownerName
  split
  · rename_i pw h
    exact (hw.users _ (getpwuid_mem h)).1.ok60
  · exact ⟨text_natStr u, Nat.lt_of_le_of_lt (Py.natStr_length 10 u) (by unfold IdOk at hu; omega)⟩

theorem ok60_groupName {w : World} (hw : w.Sane) {g : Nat} (hg : IdOk g) : Ok60 (groupName w g) := by
  unfold groupName
  split
  · rename_i pw h
    exact (hw.groups _ (getgrgid_mem h)).1.ok60
  · exact ⟨text_natStr g, Nat.lt_of_le_of_lt (Py.natStr_length 10 g) (by unfold IdOk at hg; omega)⟩

theorem encodeChar_length {c : Nat} {b : Bytes} (h : Py.encodeChar c = some b) : b.length ≤ 4 := by
  unfold Py.encodeChar at h
  repeat' split at h
  all_goals first | (cases h; done) | (cases h; simp)

theorem encodeEscape_length : ∀ (t : Str) (b : Bytes), Py.encodeEscape t = some b → b.length ≤ 4 * t.length := by
  intro t
  induction t with
  | nil => intro b h; simp [Py.encodeEscape] at h; subst h; simp
  | cons c t ih =>
    intro b h
    simp only [Py.encodeEscape] at h
    split at h
    · cases h
    · rename_i b1 h1
      have hb1 : b1.length ≤ 4 := by
        unfold Py.encodeEscapeChar at h1
        split at h1
        · cases h1; simp
        · exact encodeChar_length h1
      simp only [Option.map_eq_some_iff] at h
      obtain ⟨b2, h2, rfl⟩ := h
      have := ih _ h2
      simp only [List.length_append, List.length_cons]
      omega

theorem size_lt {n : Node} (hn : n.Sane) : (n.size : Int) < 2 ^ 64 := by
  unfold Node.size
  split
  · rename_i c hk
    have := hn.content c hk
    unfold Modest at this
    omega
  · rename_i t hk
    have := hn.target t hk
    unfold Modest at this
    cases he : Py.encodeEscape t with
    | none => simp
    | some b =>
      have := encodeEscape_length t b he
      simp only [Option.getD_some]
      omega
  · decide

theorem ftype_mem (m : Nat) : ftype m ∈ [p!"dir", p!"chr", p!"blk", p!"file", p!"fifo", p!"link", p!"sock", p!"other"] := by
  unfold ftype
  repeat' split
  all_goals simp

theorem ok60_ftype (m : Nat) : Ok60 (ftype m) := by
  have h : ∀ s ∈ [p!"dir", p!"chr", p!"blk", p!"file", p!"fifo", p!"link", p!"sock", p!"other"],
      (s.all fun c => decide (c < 0xD800)) = true ∧ s.length < 1000 := by decide
  have := h _ (ftype_mem m)
  exact ok60_lit this.1 this.2

theorem handleStat_good {sys : Sys} (hs : sys.Sane) {w : World} (hw : w.Sane) {path : Str} {fo sha : Bool} (hp : Plain path) :
    GoodReply (.stat path fo sha) (handleStat sys path fo sha w).1 ∧ (handleStat sys path fo sha w).2 = w := by
  unfold handleStat
  split
  · rename_i e h
    split
    · rename_i hn
      refine ⟨good_invalid (ok60_lit (by decide) (by decide)) ?_, rfl⟩
      rcases osStat_err hs hp h with ⟨_, rfl⟩ | h1
      · cases hn
      · exact h1.text
    · refine ⟨fun ht => ?_, rfl⟩
      rcases osStat_err hs hp h with ⟨h1, _⟩ | h1
      · exact absurd ht (hasNul_iff.mp h1)
      · exact h1
  · rename_i n h
    obtain ⟨l, hl⟩ := osStat_node h
    have hn := hw.node _ _ (lookup_ok hl).2
    simp only
    split
    · rename_i e h'
      refine ⟨fun ht => ?_, rfl⟩
      split at h'
      · obtain ⟨a, ha, h''⟩ := optional_err h'
        cases ha
        rcases osRead_err hs hp h'' with ⟨h1, _⟩ | h1
        · exact absurd ht (hasNul_iff.mp h1)
        · exact h1
      · cases h'
    · rename_i sum h'
      refine ⟨⟨⟨?_, ?_⟩, .inl (by simp [expected, Packet.kind])⟩, rfl⟩
      · have hsz := size_lt hn
        have hmt := hn.mtime
        have hct := hn.ctime
        unfold TimeOk at hmt hct
        refine ⟨(ok60_ftype _).1, ⟨?_, ?_⟩, (ok60_ownerName hw hn.uid).1, (ok60_groupName hw hn.gid).1, ⟨?_, ?_⟩, ⟨?_, ?_⟩, ⟨?_, ?_⟩, fun _ _ => trivial, trivial⟩
        · exact Int.natCast_nonneg _
        · have : n.stMode % 4096 < 4096 := Nat.mod_lt _ (by decide)
          show ((n.stMode % 4096 : Nat) : Int) ≤ 18446744073709551615
          omega
        · exact Int.natCast_nonneg _
        · show (n.size : Int) ≤ 18446744073709551615
          omega
        · exact hmt.1
        · show n.mtime ≤ 18446744073709551615
          omega
        · exact hct.1
        · show n.ctime ≤ 18446744073709551615
          omega
      · refine ⟨(ok60_ftype _).2, trivial, (ok60_ownerName hw hn.uid).2, (ok60_groupName hw hn.gid).2, trivial, trivial, trivial, ?_, trivial⟩
        intro x hx
        cases sum with
        | none => cases hx
        | some c =>
          have : sys.sha512 c = x := by simpa using hx
          subst this
          show (sys.sha512 c).length < 2 ^ 60
          rw [hs.sha512]; decide

theorem handleResolveUser_good {w : World} (hw : w.Sane) {user : Option Str} :
    GoodReply (.resolveUser user) (handleResolveUser user w).1 ∧ (handleResolveUser user w).2 = w := by
  have hres : ∀ pw ∈ w.users, GoodReply (.resolveUser user) (.answer [] (.resolveResult pw.name)) := fun pw hpw => by
    have := (hw.users _ hpw).1.ok60
    exact ⟨⟨⟨this.1, trivial⟩, ⟨this.2, trivial⟩⟩, .inl (by simp [expected, Packet.kind])⟩
  have hinv : GoodReply (.resolveUser user) (.answer [] (.invalidField p!"user" p!"The user does not exist")) :=
    good_invalid (ok60_lit (by decide) (by decide)) (ok60_lit (by decide) (by decide))
  unfold handleResolveUser
  simp only
  split
  · rename_i pw h; exact ⟨hres _ (getpwnam_mem h).1, rfl⟩
  · split
    · exact ⟨hinv, rfl⟩
    · split
      · rename_i pw h; exact ⟨hres _ (getpwuid_mem h), rfl⟩
      · exact ⟨hinv, rfl⟩
  · rename_i e hne h
    refine ⟨fun ht => ?_, rfl⟩
    rcases getpwnam_err h with ⟨_, h1⟩ | h1
    · exfalso
      cases user with
      | none =>
        have : NoNul (Py.natStr 10 w.uid) := fun h0 => by
          have := Py.natStr_chars (b := 10) (by decide) (by decide) _ _ h0
          omega
        exact hasNul_iff.mp h1 this
      | some u => exact hasNul_iff.mp h1 (ht u rfl)
    · exact absurd h1 hne

theorem handleResolveGroup_good {w : World} (hw : w.Sane) {group : Option Str} :
    GoodReply (.resolveGroup group) (handleResolveGroup group w).1 ∧ (handleResolveGroup group w).2 = w := by
  have hres : ∀ gr ∈ w.groups, GoodReply (.resolveGroup group) (.answer [] (.resolveResult gr.name)) := fun gr hgr => by
    have := (hw.groups _ hgr).1.ok60
    exact ⟨⟨⟨this.1, trivial⟩, ⟨this.2, trivial⟩⟩, .inl (by simp [expected, Packet.kind])⟩
  have hinv : GoodReply (.resolveGroup group) (.answer [] (.invalidField p!"group" p!"The group does not exist")) :=
    good_invalid (ok60_lit (by decide) (by decide)) (ok60_lit (by decide) (by decide))
  unfold handleResolveGroup
  simp only
  split
  · rename_i gr h; exact ⟨hres _ (getgrnam_mem h).1, rfl⟩
  · split
    · exact ⟨hinv, rfl⟩
    · split
      · rename_i gr h; exact ⟨hres _ (getgrgid_mem h), rfl⟩
      · exact ⟨hinv, rfl⟩
  · rename_i e hne h
    refine ⟨fun ht => ?_, rfl⟩
    rcases getgrnam_err h with ⟨_, h1⟩ | h1
    · exfalso
      cases group with
      | none =>
        have : NoNul (Py.natStr 10 w.gid) := fun h0 => by
          have := Py.natStr_chars (b := 10) (by decide) (by decide) _ _ h0
          omega
        exact hasNul_iff.mp h1 this
      | some u => exact hasNul_iff.mp h1 (ht u rfl)
    · exact absurd h1 hne

def UploadReply (file : Str) (m : Option Int) : Reply → Prop
  | .answer _ q => q = .ok
  | .close => False
  | .raise e => hasNul file = false → (∀ i ∈ m, fitsCInt i = true) → OsExn e

theorem doUpload_good {sys : Sys} (hs : sys.Sane) {w : World} (hw : w.Sane) {file : Str} {content : Bytes} {m : Option Int}
    {u g : Option Nat} (hp : Plain file) (hc : Modest content.length) (hu : ∀ x ∈ u, IdOk x) (hg : ∀ x ∈ g, IdOk x) :
    UploadReply file m (doUpload sys file content m u g w).1 ∧ (doUpload sys file content m u g w).2.Sane := by
  unfold doUpload
  split
  · rename_i e w1 h
    have := osWrite_sane hs hw hp hc h
    refine ⟨fun hn _ => ?_, this.1⟩
    rcases this.2 e rfl with ⟨h1, _⟩ | h1
    · rw [hn] at h1; cases h1
    · exact h1
  · rename_i w1 h
    have hw1 := (osWrite_sane hs hw hp hc h).1
    split
    · rename_i e w2 h2
      split at h2
      · cases h2
      · rename_i i
        have := osChmod_sane hs hw1 hp h2
        refine ⟨fun hn hi => ?_, this.1⟩
        rcases this.2 e rfl with ⟨_, h1⟩ | ⟨h1, _⟩ | h1
        · rw [hi i rfl] at h1; cases h1
        · rw [hn] at h1; cases h1
        · exact h1
    · rename_i w2 h2
      have hw2 : w2.Sane := by
        split at h2
        · cases h2; exact hw1
        · exact (osChmod_sane hs hw1 hp h2).1
      have hu0 : IdOk (u.getD 0) := by
        cases u with
        | none => unfold IdOk; decide
        | some x => exact hu x rfl
      have hg0 : IdOk (g.getD 0) := by
        cases g with
        | none => unfold IdOk; decide
        | some x => exact hg x rfl
      split
      · rename_i e w3 h3
        split at h3
        · have := osChown_sane hs hw2 hp hu0 hg0 h3
          refine ⟨fun hn _ => ?_, this.1⟩
          rcases this.2 e rfl with ⟨h1, _⟩ | h1
          · rw [hn] at h1; cases h1
          · exact h1
        · cases h3
      · rename_i w3 h3
        split at h3
        · exact ⟨rfl, (osChown_sane hs hw2 hp hu0 hg0 h3).1⟩
        · cases h3; exact ⟨rfl, hw2⟩

theorem handleUpload_good {sys : Sys} (hs : sys.Sane) {w : World} (hw : w.Sane) {file : Str} {content : Bytes}
    {mode owner group : Option Str} (hp : Plain file) (hc : Modest content.length) (hm : ∀ x ∈ mode, Plain x)
    (hu : ∀ x ∈ owner, Plain x) (hg : ∀ x ∈ group, Plain x) :
    GoodReply (.upload file content mode owner group) (handleUpload sys file content mode owner group w).1
    ∧ (handleUpload sys file content mode owner group w).2.Sane := by
  unfold handleUpload
  split
  · rename_i e h
    obtain ⟨a, rfl, ha⟩ := optional_err h
    exact ⟨good_invalid (ok60_lit (by decide) (by decide)) (resolveOct_err (hm a rfl) ha), hw⟩
  · rename_i mo hmo
    split
    · rename_i e h
      obtain ⟨a, rfl, ha⟩ := optional_err h
      exact ⟨good_invalid (ok60_lit (by decide) (by decide)) (resolveUser_err (hu a rfl) ha), hw⟩
    · rename_i ug hug
      split
      · rename_i e h
        obtain ⟨a, rfl, ha⟩ := optional_err h
        exact ⟨good_invalid (ok60_lit (by decide) (by decide)) (resolveGroup_err (hg a rfl) ha), hw⟩
      · rename_i gr hgr
        have hug' : ∀ x ∈ ug, IdOk x.1 ∧ IdOk x.2 := by
          intro x hx
          rcases optional_ok hug with ⟨_, rfl⟩ | ⟨a, b, _, rfl, hb⟩
          · cases hx
          · cases hx; exact resolveUser_ids hw hb
        have hgr' : ∀ x ∈ gr, IdOk x := by
          intro x hx
          rcases optional_ok hgr with ⟨_, rfl⟩ | ⟨a, b, _, rfl, hb⟩
          · cases hx
          · cases hx; exact resolveGroup_ids hw hb
        have key := doUpload_good hs hw (file := file) (content := content) (m := mo) (u := ug.map (·.1))
          (g := pickGid gr ug) hp hc
          (by
            intro x hx
            simp only [Option.mem_def, Option.map_eq_some_iff] at hx
            obtain ⟨a, ha, rfl⟩ := hx
            exact (hug' a ha).1)
          (by
            intro x hx
            unfold pickGid at hx
            split at hx
            · cases hx; exact hgr' _ rfl
            · simp only [Option.mem_def, Option.map_eq_some_iff] at hx
              obtain ⟨a, ha, rfl⟩ := hx
              exact (hug' a ha).2)
        refine ⟨?_, key.2⟩
        have k1 := key.1
        unfold GoodReply
        split
        · rename_i raw q hq
          rw [hq] at k1
          have : q = .ok := k1
          subst this
          exact ⟨⟨trivial, trivial⟩, .inl (by simp [expected, Packet.kind])⟩
        · rename_i hq; rw [hq] at k1; exact k1.elim
        · rename_i e hq
          rw [hq] at k1
          intro ht
          refine k1 ?_ ?_
          · cases hn : hasNul file with
            | false => rfl
            | true => exact absurd ht.1 (hasNul_iff.mp hn)
          · intro i hi
            rcases optional_ok hmo with ⟨_, rfl⟩ | ⟨a, b, rfl, rfl, hb⟩
            · cases hi
            · cases hi
              refine fitsCInt_iff.mpr (ht.2 a rfl i ?_)
              unfold resolveOct at hb
              split at hb
              · rename_i i' hi'; cases hb; exact hi'
              · cases hb

theorem handleDownload_good {sys : Sys} (hs : sys.Sane) {w : World} (hw : w.Sane) {file : Str} (hp : Plain file) :
    GoodReply (.download file) (handleDownload sys file w).1 ∧ (handleDownload sys file w).2 = w := by
  unfold handleDownload
  split
  · rename_i e h
    split
    · rename_i hn
      refine ⟨good_invalid (ok60_lit (by decide) (by decide)) ?_, rfl⟩
      rcases osRead_err hs hp h with ⟨_, rfl⟩ | h1
      · cases hn
      · exact h1.text
    · refine ⟨fun ht => ?_, rfl⟩
      rcases osRead_err hs hp h with ⟨h1, _⟩ | h1
      · exact absurd ht (hasNul_iff.mp h1)
      · exact h1
  · rename_i c h
    have := osRead_length hw h
    unfold Modest at this
    refine ⟨⟨⟨⟨trivial, trivial⟩, ⟨?_, trivial⟩⟩, .inl (by simp [expected, Packet.kind])⟩, rfl⟩
    show c.length < 2 ^ 60
    omega

theorem userEntry_good {w : World} (hw : w.Sane) {pw : PwEntry} (hpw : pw ∈ w.users) {user : Str} {hash : Bool} :
    GoodReply (.queryUser user hash) (userEntry pw hash w).1 ∧ (userEntry pw hash w).2 = w := by
  obtain ⟨u1, u2, u3, u4, u5, u6, u7⟩ := hw.users _ hpw
  have inv : ∀ m : Str, (m.all fun c => decide (c < 0xD800)) = true → m.length < 1000 →
      GoodReply (.queryUser user hash) (.answer [] (.invalidField p!"user" m)) := fun m h1 h2 =>
    good_invalid (ok60_lit (by decide) (by decide)) (ok60_lit h1 h2)
  unfold userEntry
  split
  · exact ⟨inv _ (by decide) (by decide), rfl⟩
  · rename_i e hne h
    refine ⟨fun _ => ?_, rfl⟩
    split at h
    · obtain ⟨a, ha, h'⟩ := optional_err h
      cases ha
      unfold getspnam at h'
      split at h'
      · rename_i hn; exact absurd u7 (hasNul_iff.mp hn)
      · split at h'
        · cases h'
          exact ⟨_, _, _, rfl, sendable_osError (by decide) (ok60_lit (by decide) (by decide)) (ok60_lit (by decide) (by decide))⟩
        · split at h'
          · cases h'
          · cases h'; exact absurd rfl hne
    · cases h
  · rename_i h hh
    simp only
    split
    · exact ⟨inv _ (by decide) (by decide), rfl⟩
    · rename_i g hg
      have hg' := hw.groups _ (getgrgid_mem hg)
      have hgroups : ∀ x ∈ (w.groups.filter fun g => g.members.contains pw.name).map (·.name), Ok60 x := by
        intro x hx
        obtain ⟨gr, hgr, rfl⟩ := List.mem_map.mp hx
        exact (hw.groups _ (List.mem_filter.mp hgr).1).1.ok60
      have hhash : ∀ x ∈ h, Ok60 x := by
        intro x hx
        split at hh
        · rcases optional_ok hh with ⟨ha, _⟩ | ⟨a, b, ha, rfl, hb⟩
          · cases ha
          · cases hx
            unfold getspnam at hb
            split at hb
            · cases hb
            · split at hb
              · cases hb
              · split at hb
                · rename_i e' he'
                  cases hb
                  exact (hw.shadow _ (List.mem_of_find?_eq_some he')).ok60
                · cases hb
        · cases hh; cases hx
      unfold IdOk at u5 u6
      refine ⟨⟨⟨?_, ?_⟩, .inl (by simp [expected, Packet.kind])⟩, rfl⟩
      · refine ⟨u1.1, ⟨Int.natCast_nonneg _, ?_⟩, hg'.1.1, ⟨Int.natCast_nonneg _, ?_⟩, fun x hx => (hgroups x hx).1, fun x hx => (hhash x hx).1, u2.1, u3.1, u4.1, trivial⟩
        · show (pw.uid : Int) ≤ 9223372036854775807
          omega
        · show (pw.gid : Int) ≤ 9223372036854775807
          omega
      · refine ⟨u1.ok60.2, trivial, hg'.1.ok60.2, trivial, ⟨?_, fun x hx => (hgroups x hx).2⟩, fun x hx => (hhash x hx).2, u2.ok60.2, u3.ok60.2, u4.ok60.2, trivial⟩
        have h1 := hw.ngroups
        unfold Modest at h1
        have h2 := List.length_filter_le (fun g : GrEntry => g.members.contains pw.name) w.groups
        show ((w.groups.filter fun g => g.members.contains pw.name).map (·.name)).length < 2 ^ 60
        rw [List.length_map]
        omega

theorem handleQueryUser_good {w : World} (hw : w.Sane) {user : Str} {hash : Bool} :
    GoodReply (.queryUser user hash) (handleQueryUser user hash w).1 ∧ (handleQueryUser user hash w).2 = w := by
  have hinv : GoodReply (.queryUser user hash) (.answer [] (.invalidField p!"user" p!"The user does not exist")) :=
    good_invalid (ok60_lit (by decide) (by decide)) (ok60_lit (by decide) (by decide))
  unfold handleQueryUser
  split
  · rename_i pw h; exact userEntry_good hw (getpwnam_mem h).1
  · split
    · exact ⟨hinv, rfl⟩
    · split
      · rename_i pw h; exact userEntry_good hw (getpwuid_mem h)
      · exact ⟨hinv, rfl⟩
  · rename_i e hne h
    refine ⟨fun ht => ?_, rfl⟩
    rcases getpwnam_err h with ⟨_, h1⟩ | h1
    · exact absurd ht (hasNul_iff.mp h1)
    · exact absurd h1 hne

theorem handleQueryGroup_good {w : World} (hw : w.Sane) {group : Str} :
    GoodReply (.queryGroup group) (handleQueryGroup group w).1 ∧ (handleQueryGroup group w).2 = w := by
  have hres : ∀ gr ∈ w.groups, GoodReply (.queryGroup group) (.answer [] (.groupEntry gr.name gr.gid gr.members)) := fun gr hgr => by
    obtain ⟨g1, g2, g3, g4, g5⟩ := hw.groups _ hgr
    unfold IdOk at g4
    refine ⟨⟨⟨g1.1, ⟨Int.natCast_nonneg _, ?_⟩, fun x hx => (g2 x hx).1, trivial⟩, ⟨g1.ok60.2, trivial, ⟨?_, fun x hx => (g2 x hx).ok60.2⟩, trivial⟩⟩, .inl (by simp [expected, Packet.kind])⟩
    · show (gr.gid : Int) ≤ 9223372036854775807
      omega
    · unfold Modest at g3
      show gr.members.length < 2 ^ 60
      omega
  have hinv : GoodReply (.queryGroup group) (.answer [] (.invalidField p!"group" p!"The group does not exist")) :=
    good_invalid (ok60_lit (by decide) (by decide)) (ok60_lit (by decide) (by decide))
  unfold handleQueryGroup
  split
  · rename_i gr h; exact ⟨hres _ (getgrnam_mem h).1, rfl⟩
  · split
    · exact ⟨hinv, rfl⟩
    · split
      · rename_i gr h; exact ⟨hres _ (getgrgid_mem h), rfl⟩
      · exact ⟨hinv, rfl⟩
  · rename_i e hne h
    refine ⟨fun ht => ?_, rfl⟩
    rcases getgrnam_err h with ⟨_, h1⟩ | h1
    · exact absurd ht (hasNul_iff.mp h1)
    · exact absurd h1 hne

theorem handleGetenv_good {w : World} (hw : w.Sane) {key : Str} :
    GoodReply (.getenv key) (handleGetenv key w).1 ∧ (handleGetenv key w).2 = w := by
  have : ∀ x ∈ (w.env.find? (·.1 == key)).map (·.2), Ok60 x := by
    intro x hx
    simp only [Option.mem_def, Option.map_eq_some_iff] at hx
    obtain ⟨e, he, rfl⟩ := hx
    exact (hw.env _ (List.mem_of_find?_eq_some he)).ok60
  exact ⟨⟨⟨⟨fun x hx => (this x hx).1, trivial⟩, ⟨fun x hx => (this x hx).2, trivial⟩⟩, .inl (by simp [expected, Packet.kind])⟩, rfl⟩

/-- Every request a client can send gets an answer that can be sent, or raises an error that can be reported. -/
theorem handle_good {sys : Sys} (hs : sys.Sane) {w : World} (hw : w.Sane) {p : Packet} (hp : Packet.Proper p) :
    GoodReply p (handle sys p w).1 ∧ (handle sys p w).2.Sane := by
  obtain ⟨hr, hf, hm⟩ := hp
  have same : ∀ {r : Reply × World}, GoodReply p r.1 ∧ r.2 = w → GoodReply p r.1 ∧ r.2.Sane := fun h => ⟨h.1, h.2 ▸ hw⟩
  cases p with
  | checkAlive => exact ⟨⟨⟨trivial, trivial⟩, .inl (by simp [expected, Packet.kind])⟩, hw⟩
  | exit => exact ⟨rfl, hw⟩
  | processRun command stdin capture user group umask cwd =>
    obtain ⟨_, _, _, f4, f5, f6, f7, _⟩ := hf
    obtain ⟨_, _, _, m4, m5, m6, m7, _⟩ := hm
    exact handleRun_good hs hw (fun x hx => ⟨f4 x hx, m4 x hx⟩) (fun x hx => ⟨f5 x hx, m5 x hx⟩) (fun x hx => ⟨f6 x hx, m6 x hx⟩)
      (fun x hx => ⟨f7 x hx, m7 x hx⟩)
  | stat path fo sha => exact same (handleStat_good hs hw ⟨hf.1, hm.1⟩)
  | resolveUser user => exact same (handleResolveUser_good hw)
  | resolveGroup group => exact same (handleResolveGroup_good hw)
  | upload file content mode owner group =>
    obtain ⟨f1, _, f3, f4, f5, _⟩ := hf
    obtain ⟨m1, m2, m3, m4, m5, _⟩ := hm
    exact handleUpload_good hs hw ⟨f1, m1⟩ m2 (fun x hx => ⟨f3 x hx, m3 x hx⟩) (fun x hx => ⟨f4 x hx, m4 x hx⟩) (fun x hx => ⟨f5 x hx, m5 x hx⟩)
  | download file => exact same (handleDownload_good hs hw ⟨hf.1, hm.1⟩)
  | queryUser user hash => exact same (handleQueryUser_good hw)
  | queryGroup group => exact same (handleQueryGroup_good hw)
  | getenv key => exact same (handleGetenv_good hw)
  | _ => cases hr

end Verif.Remote
