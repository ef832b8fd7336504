/-
Sessions with hosts on which whole sites are set up.
-/
import Verif.Run.SitesSpec
import Verif.Run.ProgramLemmas
import Verif.Ops.SiteLemmas

namespace Verif.Program

open Script Remote Ops
open Client.Lifecycle (OpenEnv State open' exit close)

variable {opts : Env} {tools : Tools} {targets : Str → Target} {luck : Str → Luck} {f : Fleet} {t : Target} {lk : Luck} {w w' : World}
variable {U : UnitStates} {items : List Item} {b : Settings}

theorem Plan.lasts (hp : Plan opts tools t U items b) : Lasts t.sys tools { opts with base := b } (start b) U items fun w => Identity t.base w b :=
  ⟨fun _ _ _ h => identity_untouched h, hp.login⟩

/-- A session is the script, carried out with the settings of the connection. -/
theorem session_post {Q : List OpResult → World → Prop} {E : World → Prop} (hsane : w.Sane) (hid : Identity t.base w b) (hE : E w)
    (hQ : ∀ rs w', Q rs w' → E w')
    (h : Post t.sys lk.lost (deploy t.script) { opts with base := b } (start b) w (fun rs _ w' => Q rs w') E) :
    E (session opts t lk w).2.2.1 ∧ ∀ rs, (session opts t lk w).1 = .ok rs → Q rs (session opts t lk w).2.2.1 := by
  have hscript : Post t.sys lk.lost (runCmdline t.script) { opts with base := b } { stack := [{}] } w (fun rs _ w' => Q rs w') E := by
    unfold runCmdline
    refine Post.withDefaults hsane hE ?_
    intro q' c rest r hq hst hr
    cases hq
    cases hst
    cases hid.resolved hr
    exact h
  unfold session
  split
  · exact ⟨hE, nofun⟩
  · dsimp only
    have hres := identity_post (sys := t.sys) (lost := lk.lost) (env := opts) (st := { stack := [] }) (base := t.base) hsane 0
    split
    · rename_i he
      rw [he] at hres
      cases (show _ = w from hres)
      exact ⟨hE, nofun⟩
    · rename_i base' _ w1 k he
      rw [he] at hres
      obtain ⟨e1, hb⟩ := hres
      cases (show w1 = w from e1)
      cases hb.unique hid
      have hp := hscript k
      cases hx : exec (flaky t.sys lk.lost) (runCmdline t.script) { opts with base := b } { stack := [{}] } (w, k) with
      | mk r s =>
        obtain ⟨r, st'⟩ := r
        rw [hx] at hp
        cases r with
        | error e =>
          split
          · exact ⟨hp, nofun⟩
          · exact ⟨hp, nofun⟩
        | ok rs =>
          split
          · exact ⟨hQ _ _ hp, nofun⟩
          · refine ⟨hQ _ _ hp, fun rs' h => ?_⟩
            cases h
            exact hp

theorem session_setUp (hp : Plan opts tools t U items b) (hdry : opts.dry = false) (hm : Manageable opts tools t U items b w) :
    Manageable opts tools t U items b (session opts t lk w).2.2.1
    ∧ ∀ rs, (session opts t lk w).1 = .ok rs → (rs.length = items.length ∧ ∀ r ∈ rs, r.success = true) ∧ SetUp opts t U items b (session opts t lk w).2.2.1 := by
  have h := session_post (opts := opts) (t := t) (lk := lk) (w := w) (b := b) (E := Manageable opts tools t U items b)
    (Q := fun rs w' => (rs.length = items.length ∧ ∀ r ∈ rs, r.success = true) ∧ Manageable opts tools t U items b w' ∧ SetUp opts t U items b w')
    hm.orderly.ordinary.sane hm.identity hm (fun _ _ h => h.2.1) ?_
  · exact ⟨h.1, fun rs hrs => ⟨(h.2 rs hrs).1, (h.2 rs hrs).2.2⟩⟩
  · rw [hp.script]
    refine ((items_post (lost := lk.lost) hp.modes hp.canonical hdry hp.octal hp.proper hp.compatible hp.lasts items [] (st1 := start b) (w := w) rfl rfl
      hm.orderly hm.identity (by simp)).and (deploy_successes (env := { opts with base := b }) (ops := items.map (Item.op t.sys.sha512)) fun op hop => ?_)).mono ?_ ?_
    · obtain ⟨i, hi, rfl⟩ := List.mem_map.mp hop
      exact fun st w => item_success hi hm.orderly.tasks
    · rintro rs _ w' ⟨⟨⟨h1, h2⟩, h3⟩, h4⟩
      rw [List.length_map] at h4
      exact ⟨h4, ⟨h1, h2⟩, h3⟩
    · rintro w' ⟨⟨h1, h2⟩, _⟩
      exact ⟨h1, h2⟩

/-- The owners are those of the connection, unless others are asked for. -/
theorem Identity.owned {base : Settings} (h : Identity base w b) (ts : List Task) : AllOwned { opts with base := b } (start b) ts := by
  intro x _ _
  have hown := h.owners
  have hpick : ∀ {a c : Option Str}, a ≠ none → pick a c ≠ none := by
    intro a c h
    cases c
    · exact h
    · exact nofun
  cases x.wish <;> first | exact ⟨hpick (hpick hown.1), hpick (hpick hown.2)⟩ | exact ⟨hpick (c := b.owner) hown.1, hpick (c := b.group) hown.2⟩

theorem session_settled (hp : Plan opts tools t U items b) (hm : Manageable opts tools t U items b w) (hd : SetUp opts t U items b w) :
    Same w (session opts t lk w).2.2.1
    ∧ ∀ rs, (session opts t lk w).1 = .ok rs → ∀ (n : Nat) r i, rs[n]? = some r → items[n]? = some i → r.success = true ∧ (i.Full → r.changed = false) := by
  have h := session_post (opts := opts) (t := t) (lk := lk) (w := w) (b := b) (E := Same w)
    (Q := fun rs w' => (∀ (n : Nat) r i, rs[n]? = some r → items[n]? = some i → r.success = true ∧ (i.Full → r.changed = false)) ∧ Same w w')
    hm.orderly.ordinary.sane hm.identity rfl (fun _ _ h => h.2) ?_
  · exact ⟨h.1, fun rs hrs => (h.2 rs hrs).1⟩
  · rw [hp.script]
    exact items_calm hp.modes hp.canonical hp.proper (hm.identity.owned _) hm.orderly hd items (fun _ h => h) rfl rfl

end Verif.Program
