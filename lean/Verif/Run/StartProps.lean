/-
C90: what a command line does to the hosts.
-/
import Verif.Run.Start
import Verif.Run.CmdlineProps
import Verif.Run.ProgramProps

namespace Verif.Program

open Script Remote Ops
open Run (Stands beforeDashes Means hostsOf operandsOf optionsOf Wanted)

/-- C90, dry runs of the program. If one of the arguments up to `--` is `--dry`, `--dry-run` or `--pretend`, or an abbreviation of one
of them, no host is changed, whatever the other arguments are and however the program ends. (Only the history of started processes
is longer.) Assumed: the scripts act on the hosts through operations, and programs that are for looking change nothing. -/
theorem C90_dry_hosts (noColorSet tty : Bool) (project : Project) (luck : Str → Luck) {argv : List Str} (f : Fleet)
    (hl : ∀ i c h, ∀ p w, LooksOnly p.argv → ((project.script i c h).sys.exec p w).2 = w)
    (hops : ∀ i c h, ∀ op ∈ (project.script i c h).script, Scripted op)
    (hdry : ∃ s ∈ beforeDashes argv, Stands s p!"--dry" ∨ Stands s p!"--dry-run" ∨ Stands s p!"--pretend") (h : Str) :
    let w' := (fora noColorSet tty project luck argv f).2.2.hosts h
    w' = { f.hosts h with started := w'.started } := by
  unfold fora
  cases hm : Run.mainCmdline noColorSet tty argv with
  | run o hosts i c =>
    have hd := (Run.C90_dry hm).mpr hdry
    simp only
    cases project.inventory i with
    | none => rfl
    | some loaded => exact C88_dry_run _ (project.script i c) loaded hosts luck f (hl i c) (hops i c) hd h
  | usage => rfl
  | shown => rfl
  | init _ => rfl
  | inspect _ => rfl

/-- C90, the option for hosts. With `--hosts`, only hosts in its last list, separated by commas, are changed, or even connected to.
Without a meaning there is nothing done at all. -/
theorem C90_only_hosts (noColorSet tty : Bool) (project : Project) (luck : Str → Luck) (argv : List Str) (f : Fleet) :
    (∀ ws v, Means argv ws → hostsOf ws = some v → ∀ h, (∀ wanted, Wanted [] (some v) wanted → h ∉ wanted) →
      h ∉ (fora noColorSet tty project luck argv f).2.1 ∧ (fora noColorSet tty project luck argv f).2.2.hosts h = f.hosts h)
    ∧ ((∀ ws, Means argv ws → (operandsOf ws).length ≠ 2) → (fora noColorSet tty project luck argv f).2 = ([], f)) := by
  constructor
  · intro ws v hm hv h hw
    unfold fora
    cases hc : Run.mainCmdline noColorSet tty argv with
    | usage => exact ⟨by simp, rfl⟩
    | shown => exact ⟨by simp, rfl⟩
    | init _ => exact ⟨by simp, rfl⟩
    | inspect _ => exact ⟨by simp, rfl⟩
    | run o hosts i c =>
      have hh : hosts = some v := by
        obtain ⟨args, ha, hrun⟩ := Run.means_consume noColorSet tty hm
        have : Run.mainCmdline noColorSet tty argv = Run.finish noColorSet tty (({} : Run.Namespace).grants ws) := by
          unfold Run.mainCmdline
          rw [ha]
          exact hrun {}
        rw [this] at hc
        rw [(Run.finish_iff.mp hc).2.1, hv]
      subst hh
      simp only
      cases project.inventory i with
      | none => exact ⟨by simp, rfl⟩
      | some loaded =>
        simp only
        generalize ({ base := {}, dry := o.dry, diff := o.diff, changes := o.changes } : Env) = opts
        obtain ⟨wanted, hw1, _⟩ := Run.C64_wanted [] (some v)
        have hw2 : Wanted loaded (some v) wanted := hw1
        rcases program_outcome (opts := opts) (targets := project.script i c) (luck := luck) (f := f) (loaded := loaded) (select := some v) with ⟨hs, h1, ho⟩ | ⟨m, hm⟩
        · have hn : h ∉ (program opts (project.script i c) loaded (some v) luck f).2.1 := fun hx =>
            hw wanted hw1 ((h1 wanted hw2 h).mp (ho.started.subset hx))
          exact ⟨hn, ho.others h hn⟩
        · rw [hm]
          exact ⟨by simp, rfl⟩
  · intro hno
    unfold fora
    cases hc : Run.mainCmdline noColorSet tty argv with
    | run o hosts i c =>
      obtain ⟨ws, hm, h2, _⟩ := (Run.C90_run ..).mp hc
      exact absurd (by rw [h2]; rfl) (hno ws hm)
    | usage => rfl
    | shown => rfl
    | init _ => rfl
    | inspect _ => rfl

namespace Example

/-- One inventory with two hosts. -/
def project : Project where
  inventory i := if i = p!"inventory.py" then some [p!"a", p!"b"] else none
  script _ _ _ := target

def startSeen (argv : List Str) : Option (Bool × List Str × List (Str × List Bool)) :=
  match fora false true project (fun _ => fine) argv fleet with
  | (.run e, r) => some (seen (e, r))
  | _ => none

/-- `--hosts b` runs the script on one host; with `--pretend` nothing is changed; with an option that does not exist nothing is done. -/
example : startSeen [p!"inventory.py", p!"-Hb", p!"deploy.py"] = some (true, [p!"b"], [(p!"b", [true, true, true, true])])
    ∧ ((fora false true project (fun _ => fine) [p!"inventory.py", p!"-Hb", p!"deploy.py"] fleet).2.2.hosts p!"b").fs [p!"etc", p!"site"] ≠ none
    ∧ ((fora false true project (fun _ => fine) [p!"inventory.py", p!"deploy.py", p!"--pret"] fleet).2.2.hosts p!"b").fs [p!"etc", p!"site"] = none
    ∧ startSeen [p!"inventory.py", p!"--foo", p!"deploy.py"] = none :=
  ⟨by decide +kernel, by decide +kernel, by decide +kernel, by decide +kernel⟩

/-- The hypotheses of `C90_dry_hosts` and `C90_only_hosts`. -/
example : (∃ s ∈ beforeDashes [p!"inventory.py", p!"deploy.py", p!"--pret"], Stands s p!"--dry" ∨ Stands s p!"--dry-run" ∨ Stands s p!"--pretend")
    ∧ Means [p!"inventory.py", p!"-Hb", p!"deploy.py"] [.operand p!"inventory.py", .hosts p!"b", .operand p!"deploy.py"]
    ∧ (∀ wanted, Wanted [] (some p!"b") wanted → p!"a" ∉ wanted) := by
  refine ⟨⟨p!"--pret", by decide, .inr (.inr ⟨by decide, by decide, by decide, by decide⟩)⟩,
    .operand (.inl (by decide)) <| .shortValue (n := 0) (eq := false) nofun (by decide) (fun _ => by decide) <| .operand (.inl (by decide)) .nil, ?_⟩
  intro wanted hw
  rw [Run.wanted_iff.mp hw]
  decide

end Example

end Verif.Program
