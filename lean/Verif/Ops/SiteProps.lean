/-
C94: scripts that set up a whole site.
-/
import Verif.Ops.SiteLemmas
import Verif.Ops.SiteExample

namespace Verif.Ops

open Script Remote

/-! ### C94 -/

/-- C94, what a script achieves. It calls any number of operations for files, directory trees, links, groups, users, packages, services
and clones of git repositories; for packages and services it may name the package manager or the service manager, or leave it to the
operation to find out which one the host has. Whatever happens, the host remains one on which the script can be run. If the script comes to its end, every call has
reported success, and in the end the host is as each of them asks for: not only at the time of the call. Assumed: no command that
a later call may run undoes what an earlier one achieved (otherwise this is false, see `C94_interference_refuted`); the arguments
are of the kinds for which the operations do what they should; the host is an ordinary one. -/
theorem C94_site_complete_partial (sys : Sys) (tools : Tools) (lost : Nat → Option Bool) (env : Env) (st : St) (U : UnitStates) (w : World)
    (hm : PlainModes env st) (hcm : CanonicalModes env st) (hdry : env.dry = false)
    (items : List Item) (hp : ∀ i ∈ items, i.Proper sys U) (hc : Compatible sys tools env st U items)
    (hoct : OctalDirModes env st (siteTasks sys.sha512 items)) (ho : Orderly sys tools env st U items w) :
    Orderly sys tools env st U items (perform sys lost (deploy (items.map (Item.op sys.sha512))) env st w).2
    ∧ ∀ rs, (perform sys lost (deploy (items.map (Item.op sys.sha512))) env st w).1 = .ok rs →
      rs.length = items.length ∧ (∀ r ∈ rs, r.success = true)
      ∧ (∀ i ∈ items, i.Done sys env st U (perform sys lost (deploy (items.map (Item.op sys.sha512))) env st w).2)
      ∧ ∀ t ∈ siteTasks sys.sha512 items, t.Reached (perform sys lost (deploy (items.map (Item.op sys.sha512))) env st w).2 := by
  have hpost := items_post (lost := lost) hm hcm hdry hoct hp hc lasts_true items [] (st1 := st) (w := w) rfl rfl ho trivial (by simp)
  refine ⟨(post_world hpost (fun _ _ _ h => h.1)).1, fun rs hrs => ?_⟩
  have hsucc := post_ok (deploy_successes (sys := sys) (lost := lost) (env := env) (ops := items.map (Item.op sys.sha512)) (fun op hop => by
    obtain ⟨i, hi, rfl⟩ := List.mem_map.mp hop
    exact fun st w => item_success hi ho.tasks)) hrs
  rw [List.length_map] at hsucc
  have hd := (post_ok hpost hrs).2
  refine ⟨hsucc.1, hsucc.2, hd, fun t ht => ?_⟩
  obtain ⟨i, hi, hti⟩ := List.mem_flatMap.mp ht
  cases i with
  | files c =>
    have h := hd _ hi t hti
    exact (open_way.mp h.2).reached (ho.tasks.names t ht) h.1
  | _ => cases hti

/-- C94, running a script again after it came to its end: this has no effect on the host, every call reports success, and that nothing
was changed. (Except for services for which only a state, or only whether to enable them, is given.) -/
theorem C94_site_idempotent_partial (sys : Sys) (tools : Tools) (lost lost' : Nat → Option Bool) (env : Env) (st : St) (U : UnitStates) (w : World)
    (hm : PlainModes env st) (hcm : CanonicalModes env st) (hdry : env.dry = false)
    (items : List Item) (hp : ∀ i ∈ items, i.Proper sys U) (hc : Compatible sys tools env st U items)
    (hoct : OctalDirModes env st (siteTasks sys.sha512 items)) (hown : AllOwned env st (siteTasks sys.sha512 items))
    (ho : Orderly sys tools env st U items w)
    (rs : List OpResult) (hrs : (perform sys lost (deploy (items.map (Item.op sys.sha512))) env st w).1 = .ok rs) :
    Untouched (fun _ => False) (perform sys lost (deploy (items.map (Item.op sys.sha512))) env st w).2
      (perform sys lost' (deploy (items.map (Item.op sys.sha512))) env st (perform sys lost (deploy (items.map (Item.op sys.sha512))) env st w).2).2
    ∧ ∀ rs', (perform sys lost' (deploy (items.map (Item.op sys.sha512))) env st (perform sys lost (deploy (items.map (Item.op sys.sha512))) env st w).2).1 = .ok rs' →
        rs'.length = items.length
        ∧ ∀ (n : Nat) r i, rs'[n]? = some r → items[n]? = some i → r.success = true ∧ (i.Full → r.changed = false) := by
  obtain ⟨ho1, hok⟩ := C94_site_complete_partial sys tools lost env st U w hm hcm hdry items hp hc hoct ho
  obtain ⟨-, -, hd1, -⟩ := hok rs hrs
  revert ho1 hd1
  generalize (perform sys lost (deploy (items.map (Item.op sys.sha512))) env st w).2 = w1
  intro ho1 hd1
  have hcalm := items_calm (lost := lost') hm hcm hp hown ho1 hd1 items (st1 := st) (w1 := w1) (fun _ h => h) rfl rfl
  refine ⟨?_, fun rs' h => ⟨?_, (post_ok hcalm h).1⟩⟩
  · have hs : Same w1 (perform sys lost' (deploy (items.map (Item.op sys.sha512))) env st w1).2 := post_world hcalm (fun _ _ _ h => h.2)
    exact ⟨fun q _ => by rw [hs], by rw [hs]⟩
  · obtain ⟨h1, -⟩ := (C94_site_complete_partial sys tools lost' env st U w1 hm hcm hdry items hp hc hoct ho1).2 rs' h
    exact h1

/-- C94, resuming a script: however often it was interrupted, and wherever, if it comes to its end once, the host is as every call
asks for, and another run has no effect. -/
theorem C94_site_resumable_partial (sys : Sys) (tools : Tools) (env : Env) (st : St) (U : UnitStates) (w : World)
    (hm : PlainModes env st) (hcm : CanonicalModes env st) (hdry : env.dry = false)
    (items : List Item) (hp : ∀ i ∈ items, i.Proper sys U) (hc : Compatible sys tools env st U items)
    (hoct : OctalDirModes env st (siteTasks sys.sha512 items)) (hown : AllOwned env st (siteTasks sys.sha512 items))
    (ho : Orderly sys tools env st U items w) (interrupted : List (Nat → Option Bool)) (lost lost' : Nat → Option Bool)
    (rs : List OpResult) :
    let run := fun l w => perform sys l (deploy (items.map (Item.op sys.sha512))) env st w
    let before := interrupted.foldl (fun w l => (run l w).2) w
    (run lost before).1 = .ok rs →
      (∀ i ∈ items, i.Done sys env st U (run lost before).2)
      ∧ Untouched (fun _ => False) (run lost before).2 (run lost' (run lost before).2).2 := by
  intro run before h
  have hb : Orderly sys tools env st U items before := by
    show Orderly sys tools env st U items (interrupted.foldl (fun w l => (run l w).2) w)
    induction interrupted generalizing w with
    | nil => exact ho
    | cons l ls ih =>
      exact ih (run l w).2 (C94_site_complete_partial sys tools l env st U w hm hcm hdry items hp hc hoct ho).1 h
  exact ⟨((C94_site_complete_partial sys tools lost env st U before hm hcm hdry items hp hc hoct hb).2 rs h).2.2.1,
    (C94_site_idempotent_partial sys tools lost lost' env st U before hm hcm hdry items hp hc hoct hown hb rs h).1⟩

/-! ### Cases that meet the hypotheses, and a counterexample -/

namespace Site

/-- The script of SiteExample.lean meets all hypotheses. -/
example : PlainModes Example.env Example.st ∧ CanonicalModes Example.env Example.st ∧ Example.env.dry = false
    ∧ (∀ i ∈ script, i.Proper sys Example.units) ∧ Compatible sys tools Example.env Example.st Example.units script
    ∧ OctalDirModes Example.env Example.st (siteTasks sys.sha512 script) ∧ AllOwned Example.env Example.st (siteTasks sys.sha512 script)
    ∧ Orderly sys tools Example.env Example.st Example.units script world ∧ ∀ i ∈ script, i.Full :=
  ⟨Example.plainModes, Example.canonicalModes, rfl, script_proper, script_compatible, script_octal (.inl rfl), script_owned, script_orderly (.inl rfl), fun i hi => by
    simp only [script, List.mem_cons, List.not_mem_nil, or_false] at hi
    rcases hi with rfl | rfl | rfl | rfl | rfl | rfl | rfl | rfl | rfl | rfl <;> simp [Item.Full]⟩

def run (lost : Nat → Option Bool) (w : World) : Except Exn (List OpResult) × World :=
  perform sys lost (deploy (script.map (Item.op sys.sha512))) Example.env Example.st w

/-- What is on the host: packages, groups, users, the state of the service, and who owns the directory. -/
def summary (w : World) : List Str × List Str × List Str × List (Bool × Bool) × Option Nat :=
  (w.packages, w.groups.map (·.name), w.users.map (·.name), w.units.map fun u => (u.active, u.enabled), (w.fs [p!"etc", p!"site"]).map (·.uid))

/-- The commit that is checked out. -/
def checkout (w : World) : Option Str :=
  (cloneThere w Example.app).map (·.commit)

/-- It changes everything, then nothing. -/
example : Example.changes (run Example.always world).1 = some [true, true, true, true, true, true, true, true, true, true]
    ∧ summary (run Example.always world).2 = ([p!"curl", p!"nginx"], [p!"root", p!"users", p!"web"], [p!"root", p!"alice", p!"www"], [(true, true)], some 1001)
    ∧ checkout (run Example.always world).2 = some p!"c2"
    ∧ Example.changes (run Example.always (run Example.always world).2).1 = some [false, false, false, false, false, false, false, false, false, false] :=
  ⟨by decide +kernel, by decide +kernel, by decide +kernel, by decide +kernel⟩

/-- If the connection breaks while the directory is created, the next run does the rest. -/
example : Example.changes (run (Example.breaks 17 true) world).1 = none
    ∧ summary (run (Example.breaks 17 true) world).2 = ([p!"curl", p!"nginx"], [p!"root", p!"users", p!"web"], [p!"root", p!"alice", p!"www"], [(false, false)], some 0)
    ∧ checkout (run (Example.breaks 17 true) world).2 = none
    ∧ Example.changes (run Example.always (run (Example.breaks 17 true) world).2).1 = some [false, false, false, false, true, true, true, true, true, true] :=
  ⟨by decide +kernel, by decide +kernel, by decide +kernel, by decide +kernel⟩

end Site

/-- C94, the part that is false: if `userdel` also removes the group of that name (as it does where groups are created with users), a
script that asks for a group and for the absence of the user of the same name reports success, but the group is gone; the next run
changes the host again. -/
theorem C94_interference_refuted :
    let run := fun w => perform Site.usergroupsSys Example.always (deploy (Site.interfering.map (Item.op Site.usergroupsSys.sha512))) Example.env Example.st w
    (∀ i ∈ Site.interfering, i.Proper Site.usergroupsSys Example.units)
    ∧ Orderly Site.usergroupsSys Site.usergroupsTools Example.env Example.st Example.units Site.interfering Site.usergroupsWorld
    ∧ Example.changes (run Site.usergroupsWorld).1 = some [false, true] ∧ groupNamed (run Site.usergroupsWorld).2 p!"www" = none
    ∧ Example.changes (run (run Site.usergroupsWorld).2).1 = some [true, false] ∧ (groupNamed (run (run Site.usergroupsWorld).2).2 p!"www").isSome = true :=
  ⟨Site.interfering_proper, Site.interfering_orderly, by decide +kernel, by decide +kernel, by decide +kernel, by decide +kernel⟩

end Verif.Ops
