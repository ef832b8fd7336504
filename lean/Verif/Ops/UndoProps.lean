/-
What was added can be taken back (C111).
-/
import Verif.Ops.UndoLemmas
import Verif.Ops.AccountProps
import Verif.Ops.LinesLemmas
import Verif.Ops.UserProps

namespace Verif.Ops

open Script Remote

/-- C111, file: if there is nothing at the path, then whatever `file` does there and however it ends, once the opposite operation
has succeeded, the host is as it was. -/
theorem C111_file (sys : Sys) (tools : Tools) (lost lost' : Nat → Option Bool) (env env' : Env) (st st' : St) (w : World) (hord : Ordinary sys tools w)
    (hm : PlainModes env st) (hm' : PlainModes env' st') (hdry : env'.dry = false) (path : Str) (hno : NothingAt w path) (touch touch' : Bool)
    (mode mode' owner owner' group group' : Option Str) (check check' : Bool) (r : OpResult) :
    let w1 := (perform sys lost (file path true touch mode owner group check) env st w).2
    let x := perform sys lost' (file path false touch' mode' owner' group' check') env' st' w1
    x.1 = .ok r → r.success = true → Untouched (fun _ => False) w x.2 := by
  intro w1 x hr hs
  obtain ⟨h1, h2⟩ := file_made hord (post_world (file_post hord hm) (fun _ _ _ h => h.1.2) : FileRest path true w w1)
  have hg : Gone path w1 x.2 := ((post_ok (file_post h1 hm') hr).1.1 hs hdry).2 rfl
  rcases h2 with ⟨e, h2, h3⟩ | ⟨l, h2, h3⟩
  · exact gone_nowhere h2 h3 hg
  · exact gone_undone (nothing_there hno h2) h3 hg

/-- C111, stored content: the same if the file was made by an upload or by rendering a template. -/
theorem C111_store (sys : Sys) (tools : Tools) (lost lost' : Nat → Option Bool) (env env' : Env) (st st' : St) (w : World) (hord : Ordinary sys tools w)
    (hm : PlainModes env st) (hm' : PlainModes env' st') (hdry : env'.dry = false) (op : Op OpResult) (path : Str) (source : Except Exn Bytes)
    (hsize : ∀ c, source = .ok c → Modest c.length) (hno : NothingAt w path)
    (mode mode' owner owner' group group' : Option Str) (check check' touch' : Bool) (hop : Stores sys.sha512 mode owner group check op path source) (r : OpResult) :
    let w1 := (perform sys lost op env st w).2
    let x := perform sys lost' (file path false touch' mode' owner' group' check') env' st' w1
    x.1 = .ok r → r.success = true → Untouched (fun _ => False) w x.2 := by
  intro w1 x hr hs
  obtain ⟨h1, h2⟩ := store_made hord hsize (post_world (store_post hop hord hm) (fun _ _ _ h => h.1.2) : StoreRest source path w w1)
  have hg : Gone path w1 x.2 := ((post_ok (file_post h1 hm') hr).1.1 hs hdry).2 rfl
  rcases h2 with ⟨e, h2, h3⟩ | ⟨l, h2, h3⟩
  · exact gone_nowhere h2 h3 hg
  · exact gone_undone (nothing_there hno h2) h3 hg

/-- C111, directory: the same, if there is nothing below the path either. -/
theorem C111_directory (sys : Sys) (tools : Tools) (lost lost' : Nat → Option Bool) (env env' : Env) (st st' : St) (w : World) (hord : Ordinary sys tools w)
    (hm : PlainModes env st) (hm' : PlainModes env' st') (hdry : env'.dry = false) (path : Str)
    (hno : ∀ l, Denotes w path l → ∀ q, under l q = true → w.fs q = none) (touch touch' : Bool)
    (mode mode' owner owner' group group' : Option Str) (check check' : Bool) (r : OpResult) :
    let w1 := (perform sys lost (directory path true touch mode owner group check) env st w).2
    let x := perform sys lost' (directory path false touch' mode' owner' group' check') env' st' w1
    x.1 = .ok r → r.success = true → Untouched (fun _ => False) w x.2 := by
  intro w1 x hr hs
  obtain ⟨h1, h2⟩ := directory_made hord (post_world (directory_post hord hm) (fun _ _ _ h => h.1.2) : DirectoryLeft env st path true mode owner group w w1)
  have hg : TreeGone path w1 x.2 := ((post_ok (directory_post h1 hm') hr).1.1 hs hdry).2 rfl
  rcases h2 with ⟨e, h2, h3⟩ | ⟨l, h2, h3⟩
  · exact tree_nowhere h2 h3 hg
  · exact tree_undone (hno l h2) h3 hg

/-- C111, link: the same. -/
theorem C111_link (sys : Sys) (tools : Tools) (lost lost' : Nat → Option Bool) (env env' : Env) (st st' : St) (w : World) (hord : Ordinary sys tools w)
    (hm : PlainModes env st) (hm' : PlainModes env' st') (hdry : env'.dry = false) (path target target' : Str) (hpl : Plain target) (hpl' : Plain target')
    (hdir : Direct w path) (hnd : NotToDirectory w path) (hno : NothingAt w path) (touch touch' : Bool) (owner owner' group group' : Option Str)
    (check check' : Bool) (r : OpResult) :
    let w1 := (perform sys lost (link path target true touch owner group check) env st w).2
    let x := perform sys lost' (link path target' false touch' owner' group' check') env' st' w1
    x.1 = .ok r → r.success = true → Untouched (fun _ => False) w x.2 := by
  intro w1 x hr hs
  obtain ⟨h1, h1', h2⟩ := link_made hord hpl hdir (post_world (link_post hord hm hpl hdir fun _ => .inr hnd) (fun _ _ _ h => h.1.2) : LinkRest path target true w w1)
  have hg : Gone path w1 x.2 := ((post_ok (link_post h1 hm' hpl' h1' (fun h => by cases h)) hr).1.1 hs hdry).2 rfl
  rcases h2 with ⟨e, h2, h3⟩ | ⟨l, h2, h3⟩
  · exact gone_nowhere h2 h3 hg
  · exact gone_undone (nothing_there hno h2) h3 hg

/-- C111, group: if there is no such group, then whatever `group` does and however it ends, once the opposite operation has
succeeded, the host has the groups that it had. -/
theorem C111_group (sys : Sys) (ht : GroupTools sys) (name : Str) (hname : Py.parseInt 10 name = none) (gid gid' : Option Int)
    (system system' check check' : Bool) (env env' : Env) (hdry : env'.dry = false) (st st' : St) (w : World) (lost lost' : Nat → Option Bool) (r : OpResult)
    (hno : ∀ e ∈ w.groups, e.name ≠ name) :
    let w1 := (perform sys lost (group name true gid system check) env st w).2
    let x := perform sys lost' (group name false gid' system' check') env' st' w1
    x.1 = .ok r → ∀ e, e ∈ x.2.groups ↔ e ∈ w.groups := by
  intro w1 x hr e
  have h1 := C52_other_groups sys ht name hname true gid system check env st w lost
  have h2 := C52_other_groups sys ht name hname false gid' system' check' env' st' w1 lost'
  have h3 := (C52_converges_partial sys ht name hname false gid' system' check' env' hdry st' w1 lost' r hr).2
  by_cases he : e.name = name
  · refine ⟨fun h => ?_, fun h => absurd he (hno e h)⟩
    have := List.find?_eq_none.mp h3 e h
    simp [he] at this
  · exact (h2 e he).trans (h1 e he)

/-- C111, user: if there is no such account, once `user` has made it and the opposite operation has succeeded, the host has the users
that it had; the hashes of others, the other groups and their other members are as they were. (Nothing is said about
a group with the name of the account, which is up to userdel.) -/
theorem C111_user_partial (sys : Sys) (ht : UserTools sys) (a b : UserArgs) (hpl : PlainUserArgs a) (hpres : a.present = true) (habs : b.present = false)
    (hsame : b.user = a.user) (check check' : Bool) (env env' : Env) (hdry : env.dry = false) (hdry' : env'.dry = false) (st st' : St) (w : World)
    (hu : UniqueGroups w) (hstale : memberOf w a.user = []) (hno : ∀ e ∈ w.users, e.name ≠ a.user) (lost lost' : Nat → Option Bool) (r r' : OpResult) :
    let x := perform sys lost (user a check) env st w
    let y := perform sys lost' (user b check') env' st' x.2
    x.1 = .ok r → y.1 = .ok r' → (∀ e, e ∈ y.2.users ↔ e ∈ w.users) ∧ OtherAccountsSame a.user w y.2 := by
  intro x y hr hr'
  have hname : Py.parseInt 10 b.user = none := hsame ▸ hpl.user.2.2
  have h1 := C51_other_accounts sys ht a hpl.user.2.2 check env st w lost
  have h2 := C51_other_accounts sys ht b hname check' env' st' x.2 lost'
  obtain ⟨u, hacc, _⟩ := (C51_converges_partial sys ht a hpl hpres check env hdry st w hu (fun _ => hstale) lost r hr).2
  have h3 := (C51_removed_partial sys ht b hname habs check' env' hdry' st' x.2 (.inl (by rw [hsame, hacc]; simp)) lost' r' hr').2
  rw [hsame] at h2 h3
  have h4 : OtherAccountsSame a.user w y.2 :=
    ⟨fun e he => (h2.users e he).trans (h1.users e he), fun e he => (h2.hashes e he).trans (h1.hashes e he),
      fun g i hg => (h2.groups g i hg).trans (h1.groups g i hg), fun g m hg hm => (h2.members g m hg hm).trans (h1.members g m hg hm)⟩
  refine ⟨fun e => ?_, h4⟩
  by_cases he : e.name = a.user
  · refine ⟨fun h => ?_, fun h => absurd he (hno e h)⟩
    have := List.find?_eq_none.mp h3 e h
    simp [he] at this
  · exact h4.users e he

/-- C111, line: a line that is added and taken out again leaves the lines that were there, and if the file consisted of complete
lines that end with newline characters, exactly the bytes that were there. (That the file has a line is needed, see
`C111_line_refuted`; a backup, if one is made, is not the file itself, and not in place of a directory.) -/
theorem C111_line_partial (sys : Sys) (tools : Tools) (lost lost' : Nat → Option Bool) (env env' : Env) (st st' : St) (w : World) (hord : Ordinary sys tools w)
    (hm : PlainModes env st) (hm' : PlainModes env' st') (hdry : env.dry = false) (hdry' : env'.dry = false) (path line : Str) (ws : Bool)
    (backup backup' : Backup) (check check' : Bool) (hline : ProperLine line) (hstrip : ws = true → Py.strip line = line) (old : Bytes) (hold : FileAt w path old)
    (hsome : textLines old ≠ []) (hnot : ¬ HasLine ws line old) (hsize : Modest (old.length + (4 * line.length + 2))) (hfree : BackupFree w path backup) (r r' : OpResult) :
    let x := perform sys lost (Ops.line path line true none ws backup check) env st w
    let y := perform sys lost' (Ops.line path line false none ws backup' check') env' st' x.2
    BackupFree x.2 path backup' → x.1 = .ok r → y.1 = .ok r' →
      ∃ new, FileAt y.2 path new ∧ textLines new = textLines old ∧ (UnixFile old → old.getLast? = some 10 → new = old) := by
  intro x y hfree' hr hr'
  obtain ⟨l, n, hlk, hk⟩ := hold
  obtain ⟨⟨_, hg⟩, _⟩ := (post_ok (line_existing hord hm hfree hlk hk) hr).1
  rcases hg hdry with ⟨hp, _⟩ | ⟨_, new, hnew, hdone⟩
  · exact absurd (linePresent_iff.mp hp) hnot
  · obtain ⟨new', h1, h2, h3⟩ := added (ws := ws) (old := old) hline none
    rw [h1] at hnew
    cases hnew
    have hmod : Modest new.length := by
      have := lineContent_size h1
      unfold Modest at hsize ⊢
      omega
    have ha := perform_abs hr
    obtain ⟨hres0, hl⟩ := lookup_ok hlk
    obtain ⟨h4, n', h5, h6⟩ := hdone.now (fun cwd => (resolve_abs ha cwd w.cwd false).trans hres0) hl hk
    have hat : FileAt x.2 path new := ⟨l, n', lookup_of (h4 _) h5, h6⟩
    rcases line_result (hdone.ordinary hord hl hmod) hm' hdry' hfree' hat hr' with ⟨hp, _⟩ | ⟨_, _, new', h7, h8⟩
    · rw [linePresent_iff.mpr (HasLine.added ⟨_, h3⟩)] at hp; cases hp
    · obtain ⟨h9, h10⟩ := removed_added hnot hstrip hsome h3 h7
      exact ⟨new', h8, h9, h10⟩

/-! ### Examples -/

/-- What there is at some places of a host. -/
def Example.lookedAt (w : World) : List (Option (Nat × Nat)) :=
  [[p!"tmp"], [p!"tmp", p!"x"], [p!"etc", p!"motd"], [p!"home", p!"bob"]].map fun l => (w.fs l).map fun n => (n.perm, n.uid)

/-- A file that is made and removed again, and one that is stored by an upload during which the connection is lost, and removed. -/
example : let make := file p!"/tmp/x" true false none (some p!"alice") none true
    let remove := file p!"/tmp/x" false false none none none true
    let w1 := (perform Example.sys Example.always make Example.env Example.st Example.host).2
    let x := perform Example.sys Example.always remove Example.env Example.st w1
    NothingAt Example.host p!"/tmp/x" ∧ Example.lookedAt w1 ≠ Example.lookedAt Example.host ∧ Example.reports x.1 true true = true
      ∧ Example.lookedAt x.2 = Example.lookedAt Example.host := by
  refine ⟨fun x h => ?_, by decide +kernel, by decide +kernel, by decide +kernel⟩
  have h' : lookup Example.host.fs Example.host.cwd p!"/tmp/x" false = .error ENOENT := by rfl
  rw [h'] at h
  cases h

/-- A directory. -/
example : let make := directory p!"/home/bob" true false none none none true
    let remove := directory p!"/home/bob" false false none none none true
    let w1 := (perform Example.sys Example.always make Example.env Example.st Example.host).2
    let x := perform Example.sys Example.always remove Example.env Example.st w1
    Example.lookedAt w1 ≠ Example.lookedAt Example.host ∧ Example.reports x.1 true true = true ∧ Example.lookedAt x.2 = Example.lookedAt Example.host := by
  exact ⟨by decide +kernel, by decide +kernel, by decide +kernel⟩

/-- A group and a user. -/
example : (Example.groupsAfter (group p!"wheel" false none false true)
      (perform Example.groupSys Example.always (group p!"wheel" true none false true) Example.env Example.st Example.host).2).2
    = Example.host.groups.map fun g => (g.name, g.gid, g.members) := by decide +kernel

example : Example.report (user { user := p!"bob" } true) Example.fullHost = some (true, true)
    ∧ (Example.after (user { user := p!"bob" } true) Example.fullHost).users.length = Example.fullHost.users.length + 1
    ∧ Example.report (user { user := p!"bob", present := false } true) (Example.after (user { user := p!"bob" } true) Example.fullHost) = some (true, true)
    ∧ (Example.after (user { user := p!"bob", present := false } true) (Example.after (user { user := p!"bob" } true) Example.fullHost)).users.map (·.name)
      = Example.fullHost.users.map (·.name) := by decide +kernel

/-- A line. -/
example : let add := Ops.line p!"/etc/motd" p!"there" true none true .no true
    let remove := Ops.line p!"/etc/motd" p!"there" false none true .no true
    let w1 := (perform Example.sys Example.always add Example.env Example.st (Example.motd [104, 105, 10])).2
    textLines [104, 105, 10] ≠ [] ∧ Example.motdAfter add (Example.motd [104, 105, 10]) = some [104, 105, 10, 116, 104, 101, 114, 101, 10]
      ∧ Example.motdAfter remove w1 = some [104, 105, 10] := by
  exact ⟨by decide +kernel, by decide +kernel, by decide +kernel⟩

/-- C111 is false of files without lines and of files whose last line is not ended: an empty file is left with an empty line, a missing one
is left there with an empty line, and a newline is left at the end. -/
theorem C111_line_refuted :
    let add := Ops.line p!"/etc/motd" p!"there" true none true .no true
    let remove := Ops.line p!"/etc/motd" p!"there" false none true .no true
    let after := fun w => (perform Example.sys Example.always add Example.env Example.st w).2
    Example.motdAfter remove (after (Example.motd [])) = some [10]
      ∧ Example.motdAfter remove (after (Example.host.set [p!"etc", p!"motd"] none)) = some [10]
      ∧ Example.motdAfter remove (after (Example.motd [104, 105])) = some [104, 105, 10] := by
  exact ⟨by decide +kernel, by decide +kernel, by decide +kernel⟩

end Verif.Ops
