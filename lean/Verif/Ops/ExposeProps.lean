/-
C109: Content is not exposed while it is stored.

Whatever is interrupted, and whichever call fails, is up to `sys` and `lost`, which are arbitrary: what is at the path at any
moment during an operation is what is there after a run that is cut off at this moment.
-/
import Verif.Ops.ExposeLemmas
import Verif.Ops.Example

namespace Verif.Ops

open Script Remote

theorem post_left {sys : Sys} {lost : Nat → Option Bool} {op : Op OpResult} {env : Env} {st : St} {w : World} {P : World → Prop}
    (h : Post sys lost op env st w (fun _ _ w' => P w') P) : P (perform sys lost op env st w).2 :=
  post_world h (fun _ _ _ h => h)

/-- C109. At every moment, a mode bit of the file is set only if the requested mode has it, or the file that was there before had it,
or the file is new and the bit is one of the two (reading and writing by the owner) that new files have. -/
theorem C109_bits (sys : Sys) (tools : Tools) (lost : Nat → Option Bool) (env : Env) (st : St) (w : World) (hord : Ordinary sys tools w)
    (hm : PlainModes env st) (op : Op OpResult) (path : Str) (source : Except Exn Bytes) (mode owner group : Option Str) (check : Bool)
    (hop : Stores sys.sha512 mode owner group check op path source) (l : Loc) (hl : Denotes w path l) (n : Node) (c : Bytes)
    (hn : (perform sys lost op env st w).2.fs l = some n) (hc : n.kind = .file c) (k : Nat) (hk : n.perm.testBit k = true) :
    (∃ m i, (inForce env st { fileMode := mode, owner, group }).fileMode = some m ∧ Py.parseInt 8 m = some (i : Nat) ∧ i.testBit k = true)
    ∨ (∃ old, w.fs l = some old ∧ old.perm.testBit k = true)
    ∨ (w.fs l = none ∧ (k = 7 ∨ k = 8)) := by
  have h := post_left (P := GuardedAt (fun k =>
      (∃ m i, (inForce env st { fileMode := mode, owner, group }).fileMode = some m ∧ Py.parseInt 8 m = some (i : Nat) ∧ i.testBit k = true)
      ∨ (∃ old, w.fs l = some old ∧ old.perm.testBit k = true) ∨ (w.fs l = none ∧ (k = 7 ∨ k = 8))) (fun _ => True) (fun _ => True) path w)
    (store_guarded (lost := lost) hop (fun _ _ _ => trivial) hord hm (fun _ _ => trivial) ?_ (fun _ _ _ _ => trivial) ?_ ?_)
  · exact (h l n c hl hn hc).bits k hk
  · intro m i k h1 h2 h3
    refine .inl ⟨m, i, h1, h2, ?_⟩
    rw [show (4096 : Nat) = 2 ^ 12 from rfl, Nat.testBit_mod_two_pow, Bool.and_eq_true] at h3
    exact h3.2
  · intro l' n' c' h1 h2 h3
    cases h1.symm.trans hl
    exact ⟨⟨c', h3, trivial⟩, fun k hk => .inr (.inl ⟨n', h2, hk⟩), trivial⟩
  · intro l' h1 h2
    cases h1.symm.trans hl
    exact ⟨.inr (.inr ⟨h2, .inr rfl⟩), .inr (.inr ⟨h2, .inl rfl⟩), trivial⟩

/-- C109. If the mode lets nobody but the owner read, and there was nothing at the path or a file that only its owner could read, then at no
moment anybody can read what is there but the superuser, the owner that is wanted, the user of the connection if the file is new,
and the owner that the file had before. -/
theorem C109_readers_partial (sys : Sys) (tools : Tools) (lost : Nat → Option Bool) (env : Env) (st : St) (w : World) (hord : Ordinary sys tools w)
    (hm : PlainModes env st) (op : Op OpResult) (path : Str) (source : Except Exn Bytes) (mode owner group : Option Str) (check : Bool)
    (hop : Stores sys.sha512 mode owner group check op path source) (m u : Str) (i : Nat)
    (hmode : (inForce env st { fileMode := mode, owner, group }).fileMode = some m) (hi : Py.parseInt 8 m = some (i : Int)) (hpriv : Private i)
    (howner : (inForce env st { fileMode := mode, owner, group }).owner = some u)
    (l : Loc) (hl : Denotes w path l) (hold : ∀ old, w.fs l = some old → Private old.perm)
    (n : Node) (c : Bytes) (hn : (perform sys lost op env st w).2.fs l = some n) (hc : n.kind = .file c)
    (user : Nat) (groups : List Nat) (hread : CanRead n user groups) :
    user = 0 ∨ (∃ e, DenotesUser w u e ∧ user = e.uid) ∨ (w.fs l = none ∧ user = w.uid) ∨ (∃ old, w.fs l = some old ∧ user = old.uid) := by
  have h := post_left (P := GuardedAt (fun k => ¬(k = 5 ∨ k = 2))
      (fun x => (∃ e, DenotesUser w u e ∧ x = e.uid) ∨ (w.fs l = none ∧ x = w.uid) ∨ (∃ old, w.fs l = some old ∧ x = old.uid)) (fun _ => True) path w)
    (store_guarded (lost := lost) hop (fun _ _ _ => trivial) hord hm ?_ ?_ ?_ ?_ ?_)
  · have hg := h l n c hl hn hc
    rcases hread with h0 | hr
    · exact .inl h0
    · right
      by_cases hu : user = n.uid
      · rw [hu]; exact hg.owner
      · rw [if_neg hu] at hr
        split at hr
        · exact absurd (.inl rfl) (hg.bits 5 hr)
        · exact absurd (.inr rfl) (hg.bits 2 hr)
  · intro h
    rw [howner] at h
    cases h
  · intro m' i' k h1 h2 h3
    cases hmode.symm.trans h1
    have hii : i = i' := Int.ofNat.inj (Option.some.inj (hi.symm.trans h2))
    subst hii
    rw [show (4096 : Nat) = 2 ^ 12 from rfl, Nat.testBit_mod_two_pow, Bool.and_eq_true] at h3
    rintro (rfl | rfl)
    · rw [hpriv.1] at h3; cases h3.2
    · rw [hpriv.2] at h3; cases h3.2
  · intro e u' h1 h2
    cases howner.symm.trans h1
    exact .inl ⟨e, h2, rfl⟩
  · intro l' n' c' h1 h2 h3
    cases h1.symm.trans hl
    refine ⟨⟨c', h3, trivial⟩, ?_, .inr (.inr ⟨n', h2, rfl⟩)⟩
    rintro k hk (rfl | rfl)
    · rw [(hold n' h2).1] at hk; cases hk
    · rw [(hold n' h2).2] at hk; cases hk
  · intro l' h1 h2
    cases h1.symm.trans hl
    exact ⟨by decide, by decide, .inr (.inl ⟨h2, rfl⟩)⟩

namespace Example

/-- Setting the mode of a file fails (or the dispatcher is killed right before). -/
def noChmod : Sys :=
  { sys with fault := fun _ c => match c with | .chmod _ => some ⟨1, p!"Operation not permitted", p!"Operation not permitted"⟩ | _ => none }

/-- Changing the owner of a file fails. -/
def noChown : Sys :=
  { sys with fault := fun _ c => match c with | .chown _ => some ⟨1, p!"Operation not permitted", p!"Operation not permitted"⟩ | _ => none }

theorem noChmod_ordinary : Ordinary noChmod tools host :=
  ⟨rfl, (fun _ _ _ _ h => nomatch h), host_sane, accounts⟩

theorem noChown_ordinary : Ordinary noChown tools host :=
  ⟨rfl, (fun _ _ _ _ h => nomatch h), host_sane, accounts⟩

/-- `upload_content(content="secret", dest=path, mode=mode, owner="root", group=group)` -/
def secret (path mode : Str) (group : Option Str) : Op OpResult :=
  uploadContent sys.sha512 (.str p!"secret") path (some mode) (some p!"root") group true

theorem secret_stores (path mode : Str) (group : Option Str) :
    Stores sys.sha512 (some mode) (some p!"root") group true (secret path mode group) path (Content.str p!"secret").encode :=
  .content _ _

end Example

/-- C109 is false of a file that others could read before: the content is written before the mode is set, and a run that is
interrupted in between (here: setting the mode fails) leaves it where everybody can read it. -/
theorem C109_existing_refuted :
    ∃ l n, Denotes Example.host p!"/etc/motd" l
      ∧ (perform Example.noChmod Example.always (Example.secret p!"/etc/motd" p!"600" none) Example.env Example.st Example.host).2.fs l = some n
      ∧ n.kind = .file [115, 101, 99, 114, 101, 116] ∧ ∀ user groups, user ≠ n.uid → CanRead n user groups := by
  refine ⟨[p!"etc", p!"motd"], { kind := .file [115, 101, 99, 114, 101, 116], perm := 0o644, uid := 1000, gid := 100, mtime := Example.host.clock, ctime := Example.host.clock },
    by unfold Denotes; rfl, by decide +kernel, rfl, ?_⟩
  intro user groups hu
  right
  rw [if_neg hu]
  split <;> decide

/-- Nor is it true of groups: the mode is set before the group is. A run that is interrupted in between leaves the content where the
members of another group can read it, here those of the group of the connection's user, although only members of `users` were meant to. -/
theorem C109_group_refuted :
    ∃ l n, Denotes Example.host p!"/etc/new" l ∧ Example.host.fs l = none
      ∧ (perform Example.noChown Example.always (Example.secret p!"/etc/new" p!"640" (some p!"users")) Example.env Example.st Example.host).2.fs l = some n
      ∧ n.kind = .file [115, 101, 99, 114, 101, 116] ∧ n.gid = Example.host.gid
      ∧ (∀ e, DenotesGroup Example.host p!"users" e → e.gid ≠ n.gid)
      ∧ ∀ user, user ≠ n.uid → CanRead n user [n.gid] := by
  refine ⟨[p!"etc", p!"new"], { kind := .file [115, 101, 99, 114, 101, 116], perm := 0o640, uid := 0, gid := 0, mtime := Example.host.clock, ctime := Example.host.clock },
    by unfold Denotes; rfl, by decide +kernel, by decide +kernel, rfl, by decide +kernel, ?_, ?_⟩
  · intro e he
    rcases he with he | ⟨he, _⟩
    · have : Example.host.groups.find? (·.name == p!"users") = some Remote.Example.usersG := by decide +kernel
      rw [this] at he
      cases he
      decide
    · have : Example.host.groups.find? (·.name == p!"users") = some Remote.Example.usersG := by decide +kernel
      rw [this] at he
      cases he
  · intro user hu
    right
    rw [if_neg hu, if_pos (by simp)]
    decide

/-- The hypotheses of `C109_readers_partial` (and of `C109_bits`) are met by an upload that is interrupted before the mode is set, and there is
content then that must not be read. -/
example : Ordinary Example.noChmod Example.tools Example.host ∧ PlainModes Example.env Example.st
    ∧ Stores Example.noChmod.sha512 (some p!"600") (some p!"root") none true (Example.secret p!"/etc/new" p!"600" none) p!"/etc/new" (Content.str p!"secret").encode
    ∧ (inForce Example.env Example.st { fileMode := some p!"600", owner := some p!"root", group := none }).fileMode = some p!"600"
    ∧ Py.parseInt 8 p!"600" = some (0o600 : Nat) ∧ Private 0o600
    ∧ (inForce Example.env Example.st { fileMode := some p!"600", owner := some p!"root", group := none }).owner = some p!"root"
    ∧ Denotes Example.host p!"/etc/new" [p!"etc", p!"new"] ∧ Example.host.fs [p!"etc", p!"new"] = none :=
  ⟨Example.noChmod_ordinary, Example.plainModes, Example.secret_stores _ _ _, by decide +kernel, by decide +kernel, by decide, by decide +kernel,
    by unfold Denotes; rfl, by decide +kernel⟩

example : (perform Example.noChmod Example.always (Example.secret p!"/etc/new" p!"600" none) Example.env Example.st Example.host).2.fs [p!"etc", p!"new"]
    = some { kind := .file [115, 101, 99, 114, 101, 116], perm := 0o600, uid := 0, gid := 0, mtime := Example.host.clock, ctime := Example.host.clock } := by decide +kernel

end Verif.Ops
