/-
C95: setting up whole sites on the hosts of an inventory.
-/
import Verif.Run.SitesLemmas
import Verif.Run.ProgramProps
import Verif.Ops.SiteExample

namespace Verif.Program

open Script Remote Ops

section
variable (opts : Env) (tools : Str → Tools) (targets : Str → Target) (units : Str → UnitStates) (items : Str → List Item) (base : Str → Settings)

/-- C95, what a run achieves. The script calls any number of operations for packages, groups, users, files, directory trees, links,
clones of git repositories and services on every host. However the run ends, hosts that were not asked for are left alone, and the others remain hosts on which the
script can be run. If it comes to its end, every call on every host asked for has reported success, and every such host is in the end
as all calls for it ask for. Assumed: as in C94, for each host; and the script does not take away the account that is logged in with. -/
theorem C95_deployed_partial (hdry : opts.dry = false) (loaded : List Str) (select : Option Str) (luck : Str → Luck) (f : Fleet) (wanted : List Str)
    (hw : Run.Wanted loaded select wanted) (hp : ∀ h ∈ wanted, Plan opts (tools h) (targets h) (units h) (items h) (base h))
    (hm : ∀ h ∈ wanted, Manageable opts (tools h) (targets h) (units h) (items h) (base h) (f.hosts h)) :
    let r := program opts targets loaded select luck f
    (∀ h, h ∉ wanted → r.2.2.hosts h = f.hosts h)
    ∧ (∀ h ∈ wanted, Manageable opts (tools h) (targets h) (units h) (items h) (base h) (r.2.2.hosts h))
    ∧ (r.1 = .finished → (∀ h ∈ wanted, SetUp opts (targets h) (units h) (items h) (base h) (r.2.2.hosts h))
        ∧ ∃ results, r.2.2.results = f.results ++ results ∧ (∀ h, h ∈ results.map (·.1) ↔ h ∈ wanted) ∧ (results.map (·.1)).Nodup
          ∧ ∀ h rs, (h, rs) ∈ results → rs.length = (items h).length ∧ ∀ r ∈ rs, r.success = true) := by
  intro r
  rcases program_outcome (opts := opts) (targets := targets) (luck := luck) (f := f) (loaded := loaded) (select := select) with ⟨hs, hsel, ho⟩ | ⟨m, hm'⟩
  · refine ⟨fun h hh => ho.others h fun hc => hh ((hsel wanted hw h).mp (ho.started.subset hc)), fun h hh => ?_, fun hf => ?_⟩
    · by_cases hin : h ∈ r.2.1
      · rw [ho.reached h hin]
        exact (session_setUp (hp h hh) hdry (hm h hh)).1
      · rw [ho.others h hin]
        exact hm h hh
    · obtain ⟨h1, results, h2, h3, h4⟩ := ho.finished hf
      refine ⟨fun h hh => ?_, results, h3, fun h => by rw [h2]; exact hsel wanted hw h, by rw [h2]; exact ho.once, fun h rs hin => ?_⟩
      · have hin : h ∈ hs := (hsel wanted hw h).mpr hh
        have hin' : h ∈ r.2.1 := by rw [h1]; exact hin
        rw [ho.reached h hin']
        rw [← h2] at hin
        obtain ⟨⟨h', rs⟩, hx, rfl⟩ := List.mem_map.mp hin
        exact ((session_setUp (hp h' hh) hdry (hm h' hh)).2 rs (h4 _ hx)).2
      · have hwh : h ∈ wanted := (hsel wanted hw h).mp (by rw [← h2]; exact List.mem_map_of_mem (f := (·.1)) hin)
        exact ((session_setUp (hp h hwh) hdry (hm h hwh)).2 rs (h4 _ hin)).1
  · have : r = (.died m, [], f) := hm'
    rw [this]
    exact ⟨fun _ _ => rfl, hm, nofun⟩

/-- C95, running the program again after a run that came to its end: this changes nothing on any host, wherever it ends, and all calls
report success and that nothing was changed. (Except for services for which only a state, or only whether to enable them, is given.) -/
theorem C95_again_partial (hdry : opts.dry = false) (loaded : List Str) (select : Option Str) (luck luck' : Str → Luck) (f : Fleet) (wanted : List Str)
    (hw : Run.Wanted loaded select wanted) (hp : ∀ h ∈ wanted, Plan opts (tools h) (targets h) (units h) (items h) (base h))
    (hm : ∀ h ∈ wanted, Manageable opts (tools h) (targets h) (units h) (items h) (base h) (f.hosts h))
    (hf : (program opts targets loaded select luck f).1 = .finished) :
    let first := (program opts targets loaded select luck f).2.2
    let second := program opts targets loaded select luck' first
    (∀ h, Untouched (fun _ => False) (first.hosts h) (second.2.2.hosts h))
    ∧ (second.1 = .finished → ∃ results, second.2.2.results = first.results ++ results ∧ (∀ h, h ∈ results.map (·.1) ↔ h ∈ wanted)
        ∧ ∀ h rs, (h, rs) ∈ results → rs.length = (items h).length
          ∧ ∀ (n : Nat) r i, rs[n]? = some r → (items h)[n]? = some i → r.success = true ∧ (i.Full → r.changed = false)) := by
  intro first second
  obtain ⟨_, hm1, hd1⟩ := C95_deployed_partial opts tools targets units items base hdry loaded select luck f wanted hw hp hm
  replace hd1 := (hd1 hf).1
  rcases program_outcome (opts := opts) (targets := targets) (luck := luck') (f := first) (loaded := loaded) (select := select) with ⟨hs, hsel, ho⟩ | ⟨m, hm'⟩
  · refine ⟨fun h => ?_, fun hf2 => ?_⟩
    · by_cases hin : h ∈ second.2.1
      · have hwh : h ∈ wanted := (hsel wanted hw h).mp (ho.started.subset hin)
        rw [ho.reached h hin]
        have hs := (session_settled (lk := luck' h) (hp h hwh) (hm1 h hwh) (hd1 h hwh)).1
        exact ⟨fun q _ => by rw [hs], by rw [hs]⟩
      · rw [ho.others h hin]
        exact ⟨fun _ _ => rfl, rfl⟩
    · obtain ⟨h1, results, h2, h3, h4⟩ := ho.finished hf2
      refine ⟨results, h3, fun h => by rw [h2]; exact hsel wanted hw h, fun h rs hin => ?_⟩
      have hwh : h ∈ wanted := (hsel wanted hw h).mp (by rw [← h2]; exact List.mem_map_of_mem (f := (·.1)) hin)
      refine ⟨?_, (session_settled (lk := luck' h) (hp h hwh) (hm1 h hwh) (hd1 h hwh)).2 rs (h4 _ hin)⟩
      rw [session_length (h4 _ hin), (hp h hwh).script, List.length_map]
  · have : second = (.died m, [], first) := hm'
    rw [this]
    exact ⟨fun _ => ⟨fun _ _ => rfl, rfl⟩, nofun⟩

/-- One run of the program: the hosts that are loaded, the selection, and what happens to the connections. -/
structure Attempt where
  loaded : List Str
  select : Option Str
  luck : Str → Luck

/-- C95, resuming. Whatever runs there were before, for whatever hosts, and wherever they were interrupted: if a run comes to its end,
every host that it was for is as all calls for it ask for, and another run changes nothing on any host. -/
theorem C95_resumed_partial (hdry : opts.dry = false) (history : List Attempt) (loaded : List Str) (select : Option Str) (luck luck' : Str → Luck) (f : Fleet)
    (wanted : List Str) (hw : Run.Wanted loaded select wanted) (hp : ∀ h ∈ wanted, Plan opts (tools h) (targets h) (units h) (items h) (base h))
    (hm : ∀ h ∈ wanted, Manageable opts (tools h) (targets h) (units h) (items h) (base h) (f.hosts h)) :
    let run := fun (a : Attempt) f => program opts targets a.loaded a.select a.luck f
    let before := history.foldl (fun f a => (run a f).2.2) f
    let last := run ⟨loaded, select, luck⟩ before
    last.1 = .finished →
      (∀ h ∈ wanted, SetUp opts (targets h) (units h) (items h) (base h) (last.2.2.hosts h))
      ∧ ∀ h, Untouched (fun _ => False) (last.2.2.hosts h) ((run ⟨loaded, select, luck'⟩ last.2.2).2.2.hosts h) := by
  intro run before last hf
  have hb : ∀ h ∈ wanted, Manageable opts (tools h) (targets h) (units h) (items h) (base h) (before.hosts h) := by
    show ∀ h ∈ wanted, Manageable opts (tools h) (targets h) (units h) (items h) (base h) ((history.foldl (fun f a => (run a f).2.2) f).hosts h)
    clear hf
    clear last
    clear before
    induction history generalizing f with
    | nil => exact hm
    | cons a as ih =>
      refine ih _ fun h hh => ?_
      rcases program_outcome (opts := opts) (targets := targets) (luck := a.luck) (f := f) (loaded := a.loaded) (select := a.select) with ⟨hs, hsel, ho⟩ | ⟨m, hm'⟩
      · by_cases hin : h ∈ (run a f).2.1
        · rw [ho.reached h hin]
          exact (session_setUp (hp h hh) hdry (hm h hh)).1
        · rw [ho.others h hin]
          exact hm h hh
      · have : run a f = (.died m, [], f) := hm'
        show Manageable opts (tools h) (targets h) (units h) (items h) (base h) ((run a f).2.2.hosts h)
        rw [this]
        exact hm h hh
  exact ⟨((C95_deployed_partial opts tools targets units items base hdry loaded select luck before wanted hw hp hb).2.2 hf).1,
    (C95_again_partial opts tools targets units items base hdry loaded select luck luck' before wanted hw hp hb hf).1⟩

end

/-! ### A case that meets the hypotheses -/

/-- The account that is logged in with stays, if it is still there. -/
theorem identity_kept {base b : Settings} {w w' : World} (h1 : PlainAccounts w) (h2 : PlainAccounts w') (ha : NoAliases w') (hu : w'.uid = w.uid) (hg : w'.gid = w.gid)
    (hus : ∀ u ∈ w.users, some u.name = b.asUser → ∃ u' ∈ w'.users, u'.name = u.name ∧ u'.uid = u.uid)
    (hgs : ∀ g ∈ w.groups, some g.name = b.asGroup → ∃ g' ∈ w'.groups, g'.name = g.name ∧ g'.gid = g.gid) (h : Identity base w b) : Identity base w' b := by
  obtain ⟨u, g, hu1, hg1, rfl⟩ := h
  have key1 : ∃ u', DenotesUser w' (Py.natStr 10 w'.uid) u' ∧ u'.name = u.name := by
    rcases hu1 with h | ⟨_, n, hn, h⟩
    · obtain ⟨c, hc, hd⟩ := (h1.userNames u (List.mem_of_find?_eq_some h)).2.2.1
      have : u.name = Py.natStr 10 w.uid := by simpa using List.find?_some h
      rw [this] at hc
      exact absurd (Py.natStr_chars (by decide) (by decide) _ c hc) hd
    · rw [Py.parseInt_natStr (.inr rfl)] at hn
      have hn' : w.uid = n := Int.ofNat.inj (Option.some.inj hn)
      subst hn'
      obtain ⟨u', hm, e1, e2⟩ := hus u (List.mem_of_find?_eq_some h) rfl
      have hid : u.uid = w.uid := by simpa using List.find?_some h
      refine ⟨u', .inr ⟨?_, w'.uid, Py.parseInt_natStr (.inr rfl) _, ?_⟩, e1⟩
      · refine List.find?_eq_none.mpr fun x hx hc => ?_
        obtain ⟨c, hc', hd⟩ := (h2.userNames x hx).2.2.1
        have : x.name = Py.natStr 10 w'.uid := by simpa using hc
        rw [this] at hc'
        exact hd (Py.natStr_chars (by decide) (by decide) _ c hc')
      · cases hf : w'.users.find? (·.uid == w'.uid) with
        | none =>
          have := List.find?_eq_none.mp hf u' hm
          rw [e2, hid, hu] at this
          simp at this
        | some x =>
          have hx : x.uid = w'.uid := by simpa using List.find?_some hf
          rw [eq_of_name ha.users (List.mem_of_find?_eq_some hf) hm (by rw [hx, e2, hid, hu])]
  have key2 : ∃ g', DenotesGroup w' (Py.natStr 10 w'.gid) g' ∧ g'.name = g.name := by
    rcases hg1 with h | ⟨_, n, hn, h⟩
    · obtain ⟨c, hc, hd⟩ := (h1.groupNames g (List.mem_of_find?_eq_some h)).2.2.1
      have : g.name = Py.natStr 10 w.gid := by simpa using List.find?_some h
      rw [this] at hc
      exact absurd (Py.natStr_chars (by decide) (by decide) _ c hc) hd
    · rw [Py.parseInt_natStr (.inr rfl)] at hn
      have hn' : w.gid = n := Int.ofNat.inj (Option.some.inj hn)
      subst hn'
      obtain ⟨g', hm, e1, e2⟩ := hgs g (List.mem_of_find?_eq_some h) rfl
      have hid : g.gid = w.gid := by simpa using List.find?_some h
      refine ⟨g', .inr ⟨?_, w'.gid, Py.parseInt_natStr (.inr rfl) _, ?_⟩, e1⟩
      · refine List.find?_eq_none.mpr fun x hx hc => ?_
        obtain ⟨c, hc', hd⟩ := (h2.groupNames x hx).2.2.1
        have : x.name = Py.natStr 10 w'.gid := by simpa using hc
        rw [this] at hc'
        exact hd (Py.natStr_chars (by decide) (by decide) _ c hc')
      · cases hf : w'.groups.find? (·.gid == w'.gid) with
        | none =>
          have := List.find?_eq_none.mp hf g' hm
          rw [e2, hid, hg] at this
          simp at this
        | some x =>
          have hx : x.gid = w'.gid := by simpa using List.find?_some hf
          rw [eq_of_name ha.groups (List.mem_of_find?_eq_some hf) hm (by rw [hx, e2, hid, hg])]
  obtain ⟨u', k1, k2⟩ := key1
  obtain ⟨g', k3, k4⟩ := key2
  exact ⟨u', g', k1, k3, by rw [k2, k4]⟩

namespace Sites
open Ops.Site (script world tools)

/-- A host on which the script of Ops/SiteExample.lean is to be run. -/
def target : Target := { sys := Ops.Site.sys, base := Script.baseRemoteSettings, script := script.map (Item.op Ops.Site.sys.sha512) }

def opts : Env := { base := {} }

theorem user_argv {a : UserArgs} {argv : List Str} (hi : .user a ∈ script) (hr : (Item.user a).Runs argv) :
    (argv.head? = some p!"useradd" ∨ argv.head? = some p!"usermod" ∨ argv.head? = some p!"userdel") ∧ argv.getLast? = some p!"www" := by
  have hu := Ops.Site.script_users a hi
  cases hr with
  | useradd _ options => rw [hu]; exact ⟨.inl rfl, by simp only [List.getLast?_append]; rfl⟩
  | usermod => rw [hu]; exact ⟨.inr (.inl rfl), rfl⟩
  | userdel => rw [hu]; exact ⟨.inr (.inr rfl), rfl⟩

theorem group_argv {name : Str} {present system : Bool} {gid : Option Int} {argv : List Str} (hi : .group name present gid system ∈ script)
    (hr : (Item.group name present gid system).Runs argv) :
    (argv.head? = some p!"groupadd" ∨ argv.head? = some p!"groupmod" ∨ argv.head? = some p!"groupdel") ∧ argv.getLast? = some p!"web" := by
  have hn : name = p!"web" := by
    simp only [script, List.mem_cons, List.not_mem_nil, or_false, reduceCtorEq, false_or] at hi
    cases hi
    rfl
  subst hn
  cases hr with
  | groupadd _ _ _ options => exact ⟨.inl rfl, by simp only [List.getLast?_append]; rfl⟩
  | groupmod => exact ⟨.inr (.inl rfl), rfl⟩
  | groupdel => exact ⟨.inr (.inr rfl), rfl⟩

theorem group_users {name : Str} {present system : Bool} {gid : Option Int} {p : Proc} {w w' : World} {out err : Bytes} {code : Int}
    (hr : (Item.group name present gid system).Runs p.argv) (h : Ops.Site.sys.exec p w = (.done out err code, w')) : w'.users = w.users := by
  have hh : p.argv.head? = some p!"groupadd" ∨ p.argv.head? = some p!"groupmod" ∨ p.argv.head? = some p!"groupdel" := by
    generalize p.argv = argv at hr
    cases hr <;> simp
  rw [Ops.Site.groupCommand hh] at h
  have hx : (Ops.Example.groupExec p w).2.users = w.users := by
    unfold Ops.Example.groupExec Ops.Example.groupaddExec Ops.Example.addGroup
    repeat' split
    all_goals rfl
  rcases Ops.Site.guarded_done h with ⟨w2, h1, h2, _⟩ | ⟨_, h⟩
  · rw [h2]
    rw [h1] at hx
    exact hx
  · rw [h]

theorem login : ∀ i ∈ script, ∀ p w out err code w', i.Runs p.argv → target.sys.exec p w = (.done out err code, w') →
    Orderly target.sys tools { opts with base := Example.settings } (start Example.settings) Ops.Example.units script w →
    Identity target.base w Example.settings → Identity target.base w' Example.settings := by
  intro i hi p w out err code w' hr h ho hid
  have ho' := Ops.Site.script_compatible.orderly i hi p w out err code w' hr h ho
  have hrest : (∃ w2, w' = Ops.Site.withAccounts w w2) ∨ (∃ P u, w' = { w with packages := P, units := u }) ∨ ∃ fs, w' = { w with fs := fs } := by
    cases i with
    | files c => cases hr
    | group name present gid system =>
      rcases Ops.Site.account_runs (.inl ⟨_, _, _, _, rfl⟩) hr h with ⟨w2, h, _⟩ | rfl
      · exact .inl ⟨w2, h⟩
      · exact .inl ⟨w', rfl⟩
    | user a =>
      rcases Ops.Site.account_runs (.inr ⟨_, rfl⟩) hr h with ⟨w2, h, _⟩ | rfl
      · exact .inl ⟨w2, h⟩
      · exact .inl ⟨w', rfl⟩
    | packages found m order names present =>
      obtain ⟨_, _, P, h, _⟩ := Ops.Site.package_runs hr h
      exact .inr (.inl ⟨P, w.units, h⟩)
    | service found unit state enabled =>
      obtain ⟨u, h⟩ := Ops.Site.service_runs hr h
      exact .inr (.inl ⟨w.packages, u, h⟩)
    | repo G a =>
      rcases Ops.Site.repo_runs hr h with rfl | ⟨_, _, h⟩
      · exact .inr (.inr ⟨w'.fs, rfl⟩)
      · exact .inr (.inr ⟨_, h⟩)
  have hids : w'.uid = w.uid ∧ w'.gid = w.gid := by
    rcases hrest with ⟨w2, rfl⟩ | ⟨P, u, rfl⟩ | ⟨fs, rfl⟩ <;> exact ⟨rfl, rfl⟩
  refine identity_kept ho.ordinary.accounts ho'.ordinary.accounts ho'.aliases hids.1 hids.2 ?_ ?_ hid
  · rintro u hu hn
    have hname : u.name = p!"root" := Option.some.inj hn
    refine ⟨u, ?_, rfl, rfl⟩
    cases i with
    | files c => cases hr
    | group name present gid system => rw [group_users hr h]; exact hu
    | user a =>
      obtain ⟨h1, h2⟩ := user_argv hi hr
      exact ((Ops.Site.userTools.others p w out err code w' _ h1 h2 h).users u (by rw [hname]; decide)).mpr hu
    | packages found m order names present => obtain ⟨_, _, P, rfl, _⟩ := Ops.Site.package_runs hr h; exact hu
    | service found unit state enabled => obtain ⟨_, rfl⟩ := Ops.Site.service_runs hr h; exact hu
    | repo G a => rcases Ops.Site.repo_runs hr h with rfl | ⟨_, _, rfl⟩ <;> exact hu
  · rintro g hg hn
    have hname : g.name = p!"root" := Option.some.inj hn
    cases i with
    | files c => cases hr
    | group name present gid system =>
      obtain ⟨h1, h2⟩ := group_argv hi hr
      exact ⟨g, (Ops.Site.groupTools.others p w out err code w' _ h1 h2 h g (by rw [hname]; decide)).mpr hg, rfl, rfl⟩
    | user a =>
      obtain ⟨h1, h2⟩ := user_argv hi hr
      exact ((Ops.Site.userTools.others p w out err code w' _ h1 h2 h).groups g.name g.gid (by rw [hname]; decide)).mpr ⟨g, hg, rfl, rfl⟩
    | packages found m order names present => obtain ⟨_, _, P, rfl, _⟩ := Ops.Site.package_runs hr h; exact ⟨g, hg, rfl, rfl⟩
    | service found unit state enabled => obtain ⟨_, rfl⟩ := Ops.Site.service_runs hr h; exact ⟨g, hg, rfl, rfl⟩
    | repo G a => rcases Ops.Site.repo_runs hr h with rfl | ⟨_, _, rfl⟩ <;> exact ⟨g, hg, rfl, rfl⟩

theorem plan : Plan opts tools target Ops.Example.units script Example.settings where
  script := rfl
  proper := Ops.Site.script_proper
  compatible := Ops.Site.script_compatible
  login := login
  modes := by
    intro m h
    rcases h with h | h <;> cases h <;> exact ⟨by decide, by decide⟩
  canonical := by
    intro m h
    rcases h with h | h <;> cases h
    · exact ⟨0o600, by decide⟩
    · exact ⟨0o700, by decide⟩
  octal := Ops.Site.script_octal (.inr rfl)

theorem manageable : Manageable opts tools target Ops.Example.units script Example.settings world where
  orderly := Ops.Site.script_orderly (.inr rfl)
  identity := ⟨Remote.Example.root, Remote.Example.rootG, Client.findUser_iff.mp (by decide), Client.findGroup_iff.mp (by decide), rfl⟩

/-- Two such hosts. -/
def fleet : Fleet := { hosts := fun _ => world }

def run (select : Option Str) (luck : Str → Luck) (f : Fleet) : Run.End × List Str × Fleet :=
  program opts (fun _ => target) [p!"a", p!"b"] select luck f

/-- The connection to a breaks while the directory is created. -/
def unlucky (h : Str) : Luck := if h = p!"a" then { Example.fine with lost := Ops.Example.breaks 23 true } else Example.fine

/-- All calls change something on both hosts, but only in the first run. -/
example : Example.seen (run none (fun _ => Example.fine) fleet)
      = (true, [p!"a", p!"b"], [(p!"a", [true, true, true, true, true, true, true, true, true, true]), (p!"b", [true, true, true, true, true, true, true, true, true, true])])
    ∧ Example.seen (run none (fun _ => Example.fine) { (run none (fun _ => Example.fine) fleet).2.2 with results := [] })
      = (true, [p!"a", p!"b"], [(p!"a", [false, false, false, false, false, false, false, false, false, false]), (p!"b", [false, false, false, false, false, false, false, false, false, false])]) :=
  ⟨by decide +kernel, by decide +kernel⟩

/-- After an interrupted run, the next one does the rest. -/
example : Example.seen (run none unlucky fleet) = (false, [p!"a"], [])
    ∧ Example.seen (run none (fun _ => Example.fine) (run none unlucky fleet).2.2)
      = (true, [p!"a", p!"b"], [(p!"a", [false, false, false, false, true, true, true, true, true, true]), (p!"b", [true, true, true, true, true, true, true, true, true, true])]) :=
  ⟨by decide +kernel, by decide +kernel⟩

/-- A script that removes the account that is logged in with. -/
def locked : List Item := [.user { user := p!"root", present := false }]

def lockedOut : Target := { target with script := locked.map (Item.op Ops.Site.sys.sha512) }

end Sites

/-- C95, the part that is false: a script may remove the account that is logged in with. The run comes to its end and the call reports
success. No other run comes to its end after that. -/
theorem C95_login_refuted :
    let run := fun f => program Sites.opts (fun _ => Sites.lockedOut) [p!"a"] none (fun _ => Example.fine) f
    (∀ i ∈ Sites.locked, i.Proper Sites.lockedOut.sys Ops.Example.units)
    ∧ Orderly Sites.lockedOut.sys Ops.Site.tools { Sites.opts with base := Example.settings } (start Example.settings) Ops.Example.units Sites.locked (Sites.fleet.hosts p!"a")
    ∧ Example.seen (run Sites.fleet) = (true, [p!"a"], [(p!"a", [true])])
    ∧ Example.seen (run { (run Sites.fleet).2.2 with results := [] }) = (false, [p!"a"], []) := by
  refine ⟨fun i hi => ?_, ?_, by decide +kernel, by decide +kernel⟩
  · cases List.mem_singleton.mp hi
    exact ⟨⟨⟨by decide, by decide, by decide⟩, (by intro g h; cases h), (by intro l h; cases h)⟩, (by intro l h; cases h), Ops.Site.userTools⟩
  have h := Sites.manageable.orderly
  refine ⟨h.ordinary, h.aliases, h.groups, fun a ha => ?_, fun _ _ _ _ hs => ?_, fun _ _ hs => (by cases List.mem_singleton.mp hs), ⟨nofun, nofun, List.nodup_nil, nofun, nofun, nofun, fun ⟨_, h, _⟩ => nomatch h⟩, nofun⟩
  · cases List.mem_singleton.mp ha
    exact ⟨by decide +kernel, by decide +kernel⟩
  · cases List.mem_singleton.mp hs


end Verif.Program
