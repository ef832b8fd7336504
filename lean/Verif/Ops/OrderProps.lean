/-
C103: independent parts of a script can be written in any order.
-/
import Verif.Ops.OrderLemmas
import Verif.Ops.CrowdProps

namespace Verif.Ops

open Script Remote
open Client (Prog direct)
open Wire (Packet)

/-- C103 (partially): parts of a script that do not get in each other's way. If on hosts of this kind every request of one part can be exchanged with every request of
another, the parts can be written in any order: if the script succeeds with one order, it does with every other order; each part has then the result
and prints the summaries that it has as a script of its own; and the hosts afterwards are the same. (The connection is not lost. A script that fails stops
at the part that fails, so that its effects do depend on the order.) -/
theorem C103_exchangeable_partial {ι α : Type} [DecidableEq ι] (sys : Sys) (hn : NoHistory sys) (I : World → Prop) (A : ι → Packet → Prop) (hx : AllExchangeable sys I A)
    (parts : ι → Op α) (hp : ∀ i, PureScript (parts i)) (env : Env) (st : St) (hs : st.stack ≠ []) (hA : ∀ i, AsksOnly sys I (A i) (parts i) env st)
    (w : World) (hi : I w) (order order' : List ι) (hd : order.Nodup) (hperm : order.Perm order') :
    let alone := fun i => exec (direct sys) (parts i) env st w
    let whole := fun o => exec (direct sys) (inOrder parts o) env st w
    ((∃ rs, (whole order).1.1 = .ok rs) ↔ ∃ rs', (whole order').1.1 = .ok rs')
    ∧ ∀ rs, (whole order).1.1 = .ok rs → ∃ (rs' : List α) (printed : ι → List Report), (whole order').1.1 = .ok rs'
      ∧ rs.map .ok = order.map (fun i => (alone i).1.1) ∧ rs'.map .ok = order'.map (fun i => (alone i).1.1)
      ∧ (∀ i, (alone i).1.2.shown = st.shown ++ printed i)
      ∧ (whole order).1.2.shown = st.shown ++ order.flatMap printed ∧ (whole order').1.2.shown = st.shown ++ order'.flatMap printed
      ∧ SameHost (whole order).2 (whole order').2 := by
  intro alone whole
  have hsh : ∀ i, ∃ printed, (alone i).1.2.shown = st.shown ++ printed := by
    intro i
    have hone : SameSettings st st := by
      refine ⟨?_, rfl⟩
      cases h : st.stack with
      | nil => exact absurd h hs
      | cons s l => exact ⟨s, rfl, rfl⟩
    obtain ⟨⟨_, _, _, _, new, h, _⟩, _⟩ := (framed_moments (framed_script (hp i)) hone (env := env)).run (direct sys) w
    exact ⟨new, h⟩
  obtain ⟨printed, hprinted⟩ := Classical.axiomOfChoice hsh
  have hd' : order'.Nodup := hperm.nodup_iff.mp hd
  have key : ∀ o o' : List ι, o.Nodup → o.Perm o' → (∃ rs, (whole o).1.1 = .ok rs) →
      ∃ rs', exec (direct sys) (inOrder parts o') env st w = ((.ok rs', { st with shown := st.shown ++ o'.flatMap printed }),
          finish sys (fun i => Process.start (parts i) env st fun _ => none) o' w)
        ∧ rs'.map .ok = o'.map fun i => (alone i).1.1 := by
    intro o o' hd hperm hok
    have heach := inOrder_each hn hx hp hs hA o w hd hi hok
    exact inOrder_ok hn hx hp hs hA (printed := printed) o' w (hperm.nodup_iff.mp hd) hi (fun i hi => heach i (hperm.mem_iff.mpr hi)) fun i _ => hprinted i
  refine ⟨⟨fun h => ?_, fun h => ?_⟩, fun rs hrs => ?_⟩
  · obtain ⟨rs', h1, _⟩ := key order order' hd hperm h
    exact ⟨rs', congrArg (·.1.1) h1⟩
  · obtain ⟨rs', h1, _⟩ := key order' order hd' hperm.symm h
    exact ⟨rs', congrArg (·.1.1) h1⟩
  · obtain ⟨rs', h1, h2⟩ := key order order' hd hperm ⟨rs, hrs⟩
    obtain ⟨rs1, h3, h4⟩ := key order order hd (.refl _) ⟨rs, hrs⟩
    have hrs1 : rs1 = rs := by
      have : (whole order).1.1 = .ok rs1 := congrArg (·.1.1) h3
      exact Except.ok.inj (this.symm.trans hrs)
    subst hrs1
    refine ⟨rs', printed, congrArg (·.1.1) h1, h4, h2, hprinted, congrArg (·.1.2.shown) h3, congrArg (·.1.2.shown) h1, ?_⟩
    show SameHost (exec (direct sys) (inOrder parts order) env st w).2 (exec (direct sys) (inOrder parts order') env st w).2
    rw [h1, h3]
    exact finish_perm hn hx (fun i => asks_start (hA i)) hperm w hi hd

/-- C103 (partially): parts of a script about different files. Each part creates, fills and removes files and directories. No path of one is a path of another or
on the way to one, or to the working directory, and there are no symbolic links on the way. Then the parts can be written in any order, as in
`C103_exchangeable_partial`. -/
theorem C103_files_partial {ι : Type} [DecidableEq ι] (htwo : ∀ i : ι, ∃ j, i ≠ j) (sys : Sys) (tools : Tools) (w : World) (hord : Ordinary sys tools w)
    (hn : NoHistory sys) (ts : ι → List Task) (env : Env) (st : St) (hs : st.stack ≠ []) (h : Neighbours sys tools w ts (fun _ => env) (fun _ => st))
    (order order' : List ι) (hd : order.Nodup) (hperm : order.Perm order') :
    let part := fun i => deploy ((ts i).map (·.op))
    let alone := fun i => exec (direct sys) (part i) env st w
    let whole := fun o => exec (direct sys) (inOrder part o) env st w
    ((∃ rs, (whole order).1.1 = .ok rs) ↔ ∃ rs', (whole order').1.1 = .ok rs')
    ∧ ∀ rs, (whole order).1.1 = .ok rs → ∃ (rs' : List (List OpResult)) (printed : ι → List Report), (whole order').1.1 = .ok rs'
      ∧ rs.map .ok = order.map (fun i => (alone i).1.1) ∧ rs'.map .ok = order'.map (fun i => (alone i).1.1)
      ∧ (∀ i, (alone i).1.2.shown = st.shown ++ printed i)
      ∧ (whole order).1.2.shown = st.shown ++ order.flatMap printed ∧ (whole order').1.2.shown = st.shown ++ order'.flatMap printed
      ∧ SameHost (whole order).2 (whole order').2 := by
  refine C103_exchangeable_partial sys hn _ _ (exchangeable_many hord h htwo) _ (fun i => pure_deploy _ fun op ho => ?_) env st hs (fun i => ?_) w .refl order order' hd hperm
  · obtain ⟨t, ht, rfl⟩ := List.mem_map.mp ho
    obtain ⟨j, hij⟩ := htwo i
    exact proper_listed ((h.beside i j hij).tasks.proper t ht)
  · obtain ⟨j, hij⟩ := htwo i
    have hb := h.beside i j hij
    exact asksOnly_deploy (fun _ hi => within_accounts hi hord.accounts) hb.defaults hb.tasks.proper hb.noLinkTasks

/-! ### A concrete case -/

/-- The hypotheses of `C103_files_partial` (and so those of `C103_exchangeable_partial`) are met by the three parts of the example, see also `Example.ordinary` and
`Example.noHistory`; the script succeeds. -/
example : (∀ i : Fin 3, ∃ j, i ≠ j) ∧ Neighbours Example.sys Example.tools Example.host Example.three (fun _ => Example.env) (fun _ => Example.st)
    ∧ Example.st.stack ≠ [] ∧ ([2, 0, 1] : List (Fin 3)).Nodup ∧ ([2, 0, 1] : List (Fin 3)).Perm [0, 1, 2]
    ∧ ((exec (direct Example.sys) (inOrder (fun i => deploy ((Example.three i).map (·.op))) [2, 0, 1]) Example.env Example.st Example.host).1.1.toOption.map
        (·.map (·.map (·.changed)))) = some [[true], [true, true, true], [true]] :=
  ⟨by decide, Example.three_neighbours, by decide, by decide, by decide, by decide +kernel⟩

end Verif.Ops
