/-
The small concrete host of Remote/Example.lean with the standard tools, used to show that the hypotheses of the theorems are
met by non-trivial cases, and for counterexamples.
-/
import Verif.Remote.Example
import Verif.Ops.HostSpec

namespace Verif.Ops.Example

open Script Remote
open Remote.Example (world world_sane)

/-- Standard tools that never fail by themselves. -/
def tools : Tools where
  missing := fun _ _ => none
  fault := fun _ _ _ => none
  kept := fun _ _ => none
  copied := fun _ _ => 0
  says := fun _ _ => []
  symbolic := fun _ _ _ => none
  ownerSpec := fun _ _ => none
  other := fun _ w => (.done [] [] 0, w)

/-- A host with these tools, on which no call fails. The checksum is injective. -/
def sys : Sys where
  fault := fun _ _ => none
  written := fun _ _ => 0
  exec := core tools
  sha512 := fun c => c

/-- The settings of a connection that has just been opened. -/
def env : Env :=
  { base := { asUser := some p!"root", asGroup := some p!"root", owner := some p!"root", group := some p!"root", fileMode := some p!"600",
              dirMode := some p!"700", umask := some p!"077", cwd := some p!"/tmp" } }

def st : St := { stack := [{}] }

/-- The connection never breaks. -/
def always : Nat → Option Bool := fun _ => none

/-- The host with `/tmp`, which exists on every real one. -/
def host : World := world.set [p!"tmp"] (some (Remote.Example.dirNode 0o1777))

theorem host_sane : host.Sane := by
  refine { world_sane with node := ?_ }
  intro q n h
  have h : setNode world.fs [p!"tmp"] (some (Remote.Example.dirNode 0o1777)) q = some n := h
  unfold setNode at h
  split at h
  · cases h
    exact ⟨by decide, by unfold IdOk; decide, by unfold IdOk; decide, by unfold TimeOk; decide, by unfold TimeOk; decide,
      (by intro c h; cases h), (by intro t h; cases h)⟩
  · exact world_sane.node q n h

theorem accounts : PlainAccounts host := by
  refine ⟨by decide, by decide, ?_, ?_⟩
  · intro e he
    have he : e ∈ [Remote.Example.root, Remote.Example.alice] := he
    simp only [List.mem_cons, List.not_mem_nil, or_false] at he
    rcases he with rfl | rfl <;> exact ⟨by decide, by decide, by decide, by decide, by decide⟩
  · intro e he
    have he : e ∈ [Remote.Example.rootG, Remote.Example.usersG] := he
    simp only [List.mem_cons, List.not_mem_nil, or_false] at he
    rcases he with rfl | rfl <;> exact ⟨by decide, by decide, by decide, by decide, by decide⟩

theorem noAliases : NoAliases host := ⟨by decide, by decide⟩

theorem ordinary : Ordinary sys tools host where
  exec := rfl
  stat := by intro w p f e h; cases h
  sane := host_sane
  accounts := accounts

theorem plainModes : PlainModes env st := by
  intro m h
  rcases h with h | h <;> cases h <;> exact ⟨by decide, by decide⟩

theorem canonicalModes : CanonicalModes env st := by
  intro m h
  rcases h with h | h <;> cases h
  · exact ⟨0o600, by decide⟩
  · exact ⟨0o700, by decide⟩

end Verif.Ops.Example
