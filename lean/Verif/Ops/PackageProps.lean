/-
C48, C49, C50: packages, and the choice of a backend.
-/
import Verif.Ops.PackageHostLemmas
import Verif.Ops.RepeatProps
import Verif.Ops.FrameProps
import Verif.Script.ApiProps
import Verif.Ops.Example

namespace Verif.Ops

open Script Remote
open Wire (Packet)

/-! ### C48 -/

/-- C48, whatever the host answers. The commands that a package operation runs are: one question for each package of the list,
in order, then installations (removals), which do not begin before every question has been answered and do not take place in a
dry run. Only packages of the list are installed that were said not to be installed (removed that were said to be installed),
and none twice. If the operation ends normally, it has asked about all packages and, unless this is a dry run, acted on all of
them for which this is the case. It then reports success, and a change if and only if there were such packages; for the latter
no package may be listed twice. `order` is any order in which Python may iterate over a set. -/
theorem C48_acts_on_exactly (m : Manager) (query install remove : Str → List Str) (yes : Option Bytes → Int → Prop)
    (hb : Backend m query install remove yes) (order : List Str → List Str) (horder : ∀ l, (order l).Perm l) (packages : List Str)
    (present check : Bool) (env : Env) (st st' : St) (t : List (Packet × Except Exn Packet)) (r : Except Exn OpResult)
    (h : Execution (packageWith order m packages present check) env st t r st') :
    ∃ asked todo, commandsOf t = asked.map (fun p => some (query p)) ++ todo.map (fun p => some ((if present then install else remove) p))
      ∧ asked <+: packages
      ∧ (todo ≠ [] → asked = packages ∧ env.dry = false)
      ∧ todo.Nodup
      ∧ (∀ p ∈ todo, p ∈ packages ∧ Wanting query yes t present p)
      ∧ ∀ res, r = .ok res → res.success = true ∧ asked = packages
        ∧ (env.dry = false → ∀ p ∈ packages, Wanting query yes t present p → p ∈ todo)
        ∧ ((present = true → packages.Nodup) → (res.changed = true ↔ ∃ p ∈ packages, Wanting query yes t present p)) := by
  obtain ⟨Y⟩ := hb.queries
  unfold packageWith at h
  obtain ⟨r0, st0, h0, _, hr⟩ := execution_operation.mp h
  have h1 : ∃ r1, Execution (genericPackage order m packages present) env { st with op := {} } t r1 st0
      ∧ ((∃ e, r1 = .error e ∧ r0 = .error e) ∨ ∃ x, r1 = .ok x ∧ r0 = .ok (some x)) := by
    unfold returned at h0
    rcases execution_bind.mp h0 with ⟨e, rfl, h1⟩ | ⟨t1, t2, x, st1, h1, h2, rfl⟩
    · exact ⟨_, h1, .inl ⟨e, rfl, rfl⟩⟩
    · obtain ⟨rfl, rfl, rfl⟩ := execution_pure.mp h2
      rw [List.append_nil]
      exact ⟨_, h1, .inr ⟨x, rfl, rfl⟩⟩
  obtain ⟨r1, h1, h2⟩ := h1
  obtain ⟨t1, t2, asked, done, rfl, k1, k2, k3, k4, k5⟩ := genericPackage_exec Y rfl rfl rfl h1
  have hsaid : ∀ p, SaidInstalled query yes (t1 ++ t2) p ↔ SaidInstalled query yes t1 p := by
    intro p
    rw [said_iff Y, said_iff Y]
    constructor
    · rintro ⟨pk, a, hm, h3, h4⟩
      rcases List.mem_append.mp hm with hm | hm
      · exact ⟨pk, a, hm, h3, h4⟩
      · exfalso
        have := mem_commandsOf hm
        rw [k3, h3] at this
        obtain ⟨q, _, hq⟩ := List.mem_map.mp this
        replace hq := Option.some.inj hq
        cases present
        · exact Y.notRemove _ _ hq.symm
        · exact Y.notInstall _ _ hq.symm
    · rintro ⟨pk, a, hm, h3, h4⟩
      exact ⟨pk, a, List.mem_append_left _ hm, h3, h4⟩
  refine ⟨asked, done, by rw [commandsOf_append, k2, k3], k1, k4, ?_⟩
  rcases k5 with ⟨⟨e, rfl⟩, rfl⟩ | ⟨rfl, installed, hsub, hins, hdone, hres⟩
  · refine ⟨.nil, by simp, ?_⟩
    rintro res rfl
    exfalso
    rcases h2 with ⟨e', h3, rfl⟩ | ⟨x, h3, _⟩
    · simp at hr
    · cases h3
  · have hw : ∀ p, p ∈ todoOf asked installed present ↔ p ∈ asked ∧ Wanting query yes (t1 ++ t2) present p := by
      intro p
      rw [mem_todoOf hsub]
      unfold Wanting
      rw [hsaid, ← hins]
    have hperm := horder (todoOf asked installed present)
    refine ⟨?_, ?_, ?_⟩
    · exact (hperm.nodup_iff.mpr (todoOf_nodup _ _ _)).sublist hdone.sublist
    · intro p hp
      exact (hw p).mp (hperm.mem_iff.mp (hdone.subset hp))
    · intro res hres'
      have hr1 : r1 = .ok res := by
        rcases h2 with ⟨e', rfl, rfl⟩ | ⟨x, rfl, rfl⟩
        · rw [hres'] at hr; cases hr
        · rw [hres'] at hr
          simp only at hr
          split at hr
          · cases hr
          · exact congrArg _ (Except.ok.inj hr).symm
      obtain ⟨h3, h4, h5⟩ := hres res hr1
      obtain ⟨he1, he2⟩ := installed_eq (present := present) hsub
      refine ⟨h3, rfl, ?_, ?_⟩
      · intro hd p hp hwant
        have hmem := (hw p).mpr ⟨hp, hwant⟩
        have hc : res.changed = true := by
          rw [h4]
          cases hx : Dict.eq (installedState (sorted (distinct installed))) (installedState (if present then sorted asked else [])) with
          | true => rw [he1 hx] at hmem; cases hmem
          | false => rfl
        rw [h5 hd hc]
        exact hperm.mem_iff.mpr hmem
      · intro hn
        rw [h4]
        constructor
        · intro hc
          have hne : todoOf asked installed present ≠ [] := by
            intro hnil
            rw [he2 hn hnil] at hc
            cases hc
          obtain ⟨p, hp⟩ := List.exists_mem_of_ne_nil _ hne
          exact ⟨p, (hw p).mp hp⟩
        · rintro ⟨p, hp, hwant⟩
          have hmem := (hw p).mpr ⟨hp, hwant⟩
          cases hx : Dict.eq (installedState (sorted (distinct installed))) (installedState (if present then sorted asked else [])) with
          | true => rw [he1 hx] at hmem; cases hmem
          | false => rfl

/-- C48 on a host. If a package operation ends normally and this is not a dry run, all packages of the list are installed
(absent). -/
theorem C48_converges (m : Manager) (query install remove : Str → List Str) (yes : Option Bytes → Int → Prop)
    (hb : Backend m query install remove yes) (sys : Sys) (hh : PackageHost sys query install remove yes) (order : List Str → List Str)
    (horder : ∀ l, (order l).Perm l) (packages : List Str) (present check : Bool) (env : Env) (st : St) (w : World) (lost : Nat → Option Bool)
    (hdry : env.dry = false) (r : OpResult) (hr : (perform sys lost (packageWith order m packages present check) env st w).1 = .ok r) :
    r.success = true ∧ ∀ p ∈ packages,
      (p ∈ (perform sys lost (packageWith order m packages present check) env st w).2.packages ↔ present = true) := by
  obtain ⟨Y⟩ := hb.queries
  obtain ⟨h1, h2⟩ := post_ok (packageWith_post Y hh horder) hr
  refine ⟨h1, fun p hp => ?_⟩
  have := h2 hdry p hp
  cases present with
  | true => simpa using this
  | false => simpa using this

/-- C48: if all packages are as they should be, none listed twice, nothing is done and no change is reported. -/
theorem C48_nothing_to_do (m : Manager) (query install remove : Str → List Str) (yes : Option Bytes → Int → Prop)
    (hb : Backend m query install remove yes) (sys : Sys) (hh : PackageHost sys query install remove yes) (order : List Str → List Str)
    (horder : ∀ l, (order l).Perm l) (packages : List Str) (present check : Bool) (hn : present = true → packages.Nodup) (env : Env) (st : St) (w : World)
    (hw : ∀ p ∈ packages, (p ∈ w.packages ↔ present = true)) :
    NothingToDo sys (packageWith order m packages present check) env st w := by
  obtain ⟨Y⟩ := hb.queries
  have hall : AllAs present packages w := by
    intro p hp
    have := hw p hp
    cases present with
    | true => simpa using this
    | false => simpa using this
  intro lost
  have hpost := packageWith_calm (lost := lost) (env := env) (st := st) (check := check) Y hh horder hall hn
  refine ⟨?_, fun r hr => (post_ok hpost hr).1⟩
  exact untouched_same (post_world hpost (fun _ _ _ h => h.2))

/-- C48: a second run does nothing. -/
theorem C48_idempotent (m : Manager) (query install remove : Str → List Str) (yes : Option Bytes → Int → Prop)
    (hb : Backend m query install remove yes) (sys : Sys) (hh : PackageHost sys query install remove yes) (order : List Str → List Str)
    (horder : ∀ l, (order l).Perm l) (packages : List Str) (present check : Bool) (hn : present = true → packages.Nodup) (env : Env) (st : St) (w : World)
    (lost : Nat → Option Bool) (hdry : env.dry = false) (r : OpResult)
    (hr : (perform sys lost (packageWith order m packages present check) env st w).1 = .ok r) :
    NothingToDo sys (packageWith order m packages present check) env st
      (perform sys lost (packageWith order m packages present check) env st w).2 :=
  C48_nothing_to_do m query install remove yes hb sys hh order horder packages present check hn env st _
    (C48_converges m query install remove yes hb sys hh order horder packages present check env st w lost hdry r hr).2

/-! A host with pacman. -/

namespace Example

def pacmanExec (p : Proc) (w : World) : ExecRes × World :=
  match p.argv.getLast? with
  | none => (.failed { errno := ENOENT, strerror := [], msg := [] }, w)
  | some n =>
    if p.argv = [p!"pacman", p!"-Ql", p!"--", n] then (.done [] [] (if w.packages.contains n then 0 else 1), w)
    else if p.argv = [p!"pacman", p!"--color", p!"always", p!"--noconfirm", p!"-S", p!"--", n] then (.done [] [] 0, { w with packages := n :: w.packages })
    else if p.argv = [p!"pacman", p!"--color", p!"always", p!"--noconfirm", p!"-Rns", p!"--", n] then
      (.done [] [] 0, { w with packages := w.packages.filter (· != n) })
    else if p.argv = [p!"bash", p!"-c", packageProbe.text] then (.done b!"pacman\n" [] 0, w)
    else (.failed { errno := ENOENT, strerror := [], msg := [] }, w)

/-- The example host, with pacman, bash, and no other programs. -/
def pacmanSys : Sys := { sys with exec := pacmanExec }

theorem pacmanHost : PackageHost pacmanSys
    (fun name => [p!"pacman", p!"-Ql", p!"--", name])
    (fun name => [p!"pacman", p!"--color", p!"always", p!"--noconfirm", p!"-S"] ++ [] ++ [p!"--", name])
    (fun name => [p!"pacman", p!"--color", p!"always", p!"--noconfirm", p!"-Rns"] ++ [] ++ [p!"--", name])
    (fun _ code => code = 0) where
  ask := by
    intro p w out err code w' name hp h
    simp only [pacmanSys, pacmanExec, hp] at h
    simp at h
    obtain ⟨⟨_, _, h1⟩, h2⟩ := h
    refine ⟨h2.symm, ?_⟩
    rw [← h1]
    by_cases hx : name ∈ w.packages <;> simp [hx]
  install := by
    intro p w out err w' name hp h
    simp only [pacmanSys, pacmanExec, hp] at h
    simp at h
    obtain ⟨_, h2⟩ := h
    rw [← h2]
    exact ⟨by simp, fun q hq => by simp [hq]⟩
  remove := by
    intro p w out err w' name hp h
    simp only [pacmanSys, pacmanExec, hp] at h
    simp at h
    obtain ⟨_, h2⟩ := h
    rw [← h2]
    exact ⟨by simp, fun q hq => (List.mem_filter.mp hq).1⟩

/-- The example host with the package git. -/
def packageWorld : World := { host with packages := [p!"git"] }

def onceOp (present : Bool) : Op OpResult := packageWith id (pacman []) [p!"vim", p!"git", p!"jq"] present true

/-- What an operation reports and which packages there are afterwards. -/
def packagesAfter (sys : Sys) (op : Op OpResult) (w : World) : Option (Bool × Bool) × List Str × Nat :=
  (match (perform sys always op env st w).1 with
    | .ok r => some (r.success, r.changed)
    | .error _ => none,
   (perform sys always op env st w).2.packages, (perform sys always op env st w).2.started.length)

/-- Cases that meet the hypotheses: vim and jq are installed; git is removed. -/
example : packagesAfter pacmanSys (onceOp true) packageWorld = (some (true, true), [p!"jq", p!"vim", p!"git"], 5) := by decide +kernel
example : packagesAfter pacmanSys (onceOp false) packageWorld = (some (true, true), [], 4) := by decide +kernel

end Example

/-- C48, the part that is false: all packages are installed, one of them is listed twice; nothing has to be done and nothing is
done, but a change is reported, every time. -/
theorem C48_duplicates_refuted :
    Example.packagesAfter Example.pacmanSys (packageWith id (pacman []) [p!"git", p!"git"] true true) Example.packageWorld
      = (some (true, true), [p!"git"], 2) := by decide +kernel

/-! ### C49 -/

/-- C49 for packages. Which of apt-get, pacman and emerge is the first that exists on the host decides: it is as if the operation
of that package manager had been called. If there is none, an OperationError that says so is raised. Looking for it changes nothing; if that
fails (e.g. since the connection breaks), its exception is raised. -/
theorem C49_package (sys : Sys) (exists_ : World → Str → Bool) (hbash : BashHost sys exists_ packageProbe) (hstart : ∀ w s c, exists_ { w with started := s } c = exists_ w c)
    (order : List Str → List Str) (packages : List Str) (present check : Bool) (env : Env) (st : St) (w : World) (lost : Nat → Option Bool) :
    ∃ w', Untouched (fun _ => False) w w'
      ∧ ((∃ e, perform sys lost (Connection.run [p!"bash", p!"-c", packageProbe.text]) env st w = (.error e, w')
          ∧ perform sys lost (package order packages present check) env st w = (.error e, w'))
        ∨ match (if exists_ w p!"apt-get" then some (apt []) else if exists_ w p!"pacman" then some (pacman [])
            else if exists_ w p!"emerge" then some (portage [] false) else none) with
          | none => ∃ rest, perform sys lost (package order packages present check) env st w
            = (.error (.operationError (p!"No supported package manager was found on the remote system." ++ rest)), w')
          | some m => perform sys lost (package order packages present check) env st w
            = perform sys (fun i => lost (i + 1)) (packageWith order m packages present check) env st w') := by
  have hfound : ∀ p out err code w', p.argv = [p!"bash", p!"-c", findQuery (packageManagers.map (·.1))] →
      sys.exec p { w with started := p :: w.started } = (.done out err code, w') →
      Same w w' ∧ lookupKey packageManagers (Py.strip (Py.decodeIgnore out)) =
        (if exists_ w p!"apt-get" then some (apt []) else if exists_ w p!"pacman" then some (pacman [])
            else if exists_ w p!"emerge" then some (portage [] false) else none) := by
    intro p out err code w' hp hx
    obtain ⟨rfl, rfl⟩ := hbash p _ out err code w' hp hx
    refine ⟨same_started _ _, ?_⟩
    simp only [packageProbe, Shell.probe, Shell.run, hstart]
    cases exists_ w p!"apt-get" with
    | true => rfl
    | false =>
      cases exists_ w p!"pacman" with
      | true => rfl
      | false => cases exists_ w p!"emerge" <;> rfl
  obtain ⟨w', hw', hk⟩ := find_then (sys := sys) (lost := lost) (env := env) (st := st) packageManagers (fun m => match m with
      | none => newOpFail p!"No supported package manager was found on the remote system."
      | some m => packageWith order m packages present check) _ hfound
  refine ⟨w', untouched_same hw', ?_⟩
  rcases hk with hk | hk
  · exact .inl hk
  · have hk' : perform sys lost (package order packages present check) env st w = _ := hk
    rw [hk']
    generalize (if exists_ w p!"apt-get" then some (apt []) else if exists_ w p!"pacman" then some (pacman [])
            else if exists_ w p!"emerge" then some (portage [] false) else none) = x
    cases x with
    | none => exact .inr ⟨[], rfl⟩
    | some m => exact .inr rfl

/-- C49 for services. -/
theorem C49_service (sys : Sys) (exists_ : World → Str → Bool) (hbash : BashHost sys exists_ serviceProbe) (hstart : ∀ w s c, exists_ { w with started := s } c = exists_ w c)
    (name : Str) (state : Option Str) (enabled : Option Bool) (check : Bool) (env : Env) (st : St) (w : World) (lost : Nat → Option Bool) :
    ∃ w', Untouched (fun _ => False) w w'
      ∧ ((∃ e, perform sys lost (Connection.run [p!"bash", p!"-c", serviceProbe.text]) env st w = (.error e, w')
          ∧ perform sys lost (service name state enabled check) env st w = (.error e, w'))
        ∨ if exists_ w p!"systemctl" then perform sys lost (service name state enabled check) env st w
            = perform sys (fun i => lost (i + 1)) (systemdService name state enabled false check) env st w'
          else ∃ rest, perform sys lost (service name state enabled check) env st w
            = (.error (.operationError (p!"No supported service manager was found on the remote system." ++ rest)), w')) := by
  have hfound : ∀ p out err code w', p.argv = [p!"bash", p!"-c", findQuery (serviceManagers.map (·.1))] →
      sys.exec p { w with started := p :: w.started } = (.done out err code, w') →
      Same w w' ∧ lookupKey serviceManagers (Py.strip (Py.decodeIgnore out)) =
        (if exists_ w p!"systemctl" then some (fun service state enabled check => systemdService service state enabled false check) else none) := by
    intro p out err code w' hp hx
    obtain ⟨rfl, rfl⟩ := hbash p _ out err code w' hp hx
    refine ⟨same_started _ _, ?_⟩
    simp only [serviceProbe, Shell.probe, Shell.run, hstart]
    cases exists_ w p!"systemctl" <;> rfl
  obtain ⟨w', hw', hk⟩ := find_then (sys := sys) (lost := lost) (env := env) (st := st) serviceManagers (fun m => match m with
      | none => newOpFail p!"No supported service manager was found on the remote system."
      | some f => f name state enabled check) _ hfound
  refine ⟨w', untouched_same hw', ?_⟩
  rcases hk with hk | hk
  · exact .inl hk
  · have hk' : perform sys lost (service name state enabled check) env st w = _ := hk
    rw [hk']
    cases hx : exists_ w p!"systemctl" with
    | false => exact .inr ⟨[], rfl⟩
    | true => exact .inr rfl

namespace Example

/-- The host with pacman has bash and finds pacman. -/
theorem pacmanBash : BashHost pacmanSys (fun _ c => c == p!"pacman") packageProbe := by
  intro p w out err code w' hp h
  have hlast : p.argv.getLast? = some packageProbe.text := by rw [hp]; rfl
  have h0 : pacmanExec p w = (.done b!"pacman\n" [] 0, w) := by
    unfold pacmanExec
    rw [hlast]
    simp only [hp]
    rfl
  have h : pacmanExec p w = (.done out err code, w') := h
  rw [h0] at h
  cases h
  exact ⟨rfl, rfl⟩

/-- A case that meets the hypotheses: the packages are installed by pacman; and one where there is no package manager. -/
example : packagesAfter pacmanSys (package id [p!"vim", p!"git"] true true) packageWorld = (some (true, true), [p!"vim", p!"git"], 4) := by decide +kernel

def bareSys : Sys := { sys with exec := fun p w =>
  if p.argv = [p!"bash", p!"-c", packageProbe.text] then (.done b!"__unknown__\n" [] 0, w) else (.failed { errno := ENOENT, strerror := [], msg := [] }, w) }

example : packagesAfter bareSys (package id [p!"vim", p!"git"] true true) packageWorld = (none, [p!"git"], 1) := by decide +kernel

end Example

/-! ### C50 -/

/-- C50 is false: on every host on which there is no program with the misspelt name `dpgk-query`, and whatever other programs
and packages there are, `apt.package` raises, unless the list is empty; nothing is changed. -/
theorem C50_apt_refuted (sys : Sys) (hno : ∀ p w, p.argv.head? = some p!"dpgk-query" → ∃ e, (sys.exec p w).1 = .failed e)
    (order : List Str → List Str) (opts packages : List Str) (hne : packages ≠ []) (present check : Bool) (env : Env) (st : St) (w : World)
    (lost : Nat → Option Bool) :
    (∀ r, (perform sys lost (packageWith order (apt opts) packages present check) env st w).1 ≠ .ok r)
      ∧ Untouched (fun _ => False) w (perform sys lost (packageWith order (apt opts) packages present check) env st w).2 := by
  have hpost : Post sys lost (packageWith order (apt opts) packages present check) env st w (fun _ _ _ => False) (Same w) := by
    unfold packageWith
    refine Post.operation (Post.returned ?_)
    unfold genericPackage
    refine Post.bind ?_
    cases packages with
    | nil => exact absurd rfl hne
    | cons p ps =>
      unfold queryInstalled
      refine Post.bind ?_
      show Post sys lost (Connection.run [p!"dpgk-query", p!"--show", p!"--showformat=${Status}", p!"--", p] >>= _) _ _ _ _ _
      refine Post.bind (Post.run ?_ (same_refl w))
      intro pr out err code w' hp hx
      exfalso
      obtain ⟨e, he⟩ := hno pr { w with started := pr :: w.started } (by rw [hp]; rfl)
      rw [hx] at he
      cases he
  refine ⟨fun r hr => ?_, untouched_same (post_world hpost (fun _ _ _ h => h.elim))⟩
  obtain ⟨st', h⟩ := hpost.perform.1 r hr
  exact h

namespace Example

/-- A host with dpkg-query, on which git is installed. -/
def aptSys : Sys := { sys with exec := fun p w =>
  match p.argv with
  | [a, _, _, _, n] =>
    if a = p!"dpkg-query" then (if w.packages.contains n then (.done b!"install ok installed" [] 0, w) else (.done [] [] 1, w))
    else (.failed { errno := ENOENT, strerror := [], msg := [] }, w)
  | _ => (.failed { errno := ENOENT, strerror := [], msg := [] }, w) }

example : packagesAfter aptSys (packageWith id (apt []) [p!"git"] true true) packageWorld = (none, [p!"git"], 0) := by decide +kernel

end Example

/-- C50, what holds: with no packages there is nothing to do. -/
theorem C50_empty_partial (sys : Sys) (order : List Str → List Str) (opts : List Str) (present check : Bool) (env : Env) (st : St) (w : World)
    (lost : Nat → Option Bool) :
    ∃ r, perform sys lost (packageWith order (apt opts) [] present check) env st w = (.ok r, w) ∧ r.success = true ∧ r.changed = false := by
  refine ⟨{ success := true, changed := false, initial := installedState [], final := installedState [] }, ?_, rfl, rfl⟩
  obtain ⟨base, dry, diff, changes⟩ := env
  cases present <;> cases check <;> cases changes <;> rfl

end Verif.Ops
