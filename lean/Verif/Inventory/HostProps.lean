/-
C66 for whole inventories: every host that is declared is connected to where its declaration says.
-/
import Verif.Inventory.GroupProps
import Verif.Inventory.UrlProps

namespace Verif.Inventory

/-- How a host with this declared url is connected to: a plain host name, maybe with a user, means ssh; anything with a colon is
used as it is; without a url there is no connection. -/
def Connects (declared url : Option Str) : Prop :=
  match declared with
  | none => (∃ e, connectorOf url = .error e)
  | some u =>
    (58 ∉ u → connectorOf url = .ok .ssh
      ∧ ∀ (dispatcher : Str) (host : SshHost), sshCommand dispatcher url host = .ok ([p!"ssh"] ++ host.opts ++ [p!"ssh://" ++ u, dispatcher]))
    ∧ (58 ∈ u → url = some u)

/-- C66: all hosts of an inventory that loads, whether they are given by a url or have a name of their own, are those that were
declared, in order: they have the declared name, module file and variables, and are connected to as declared. -/
theorem C66_declared_hosts (so : SetOrder) (es : List (Entry HostDecl)) (groups : Option (List (Entry GroupDecl))) (d : Declared)
    (hd : Yields (fun fuel => declare fuel so es groups) (.ok d)) :
    Each (fun e h => ∃ decl, e.host = .ok decl ∧ (∀ n, decl.name = some n → h.1 = n) ∧ h.2.file = decl.file ∧ h.2.vars = decl.vars
      ∧ Connects decl.url h.2.url) es d.hosts := by
  obtain ⟨res, hres, hspec⟩ := declare_spec so es groups
  have : res = .ok d := by
    obtain ⟨n, h1⟩ := hres
    obtain ⟨m, h2⟩ := hd
    have h3 := h1 (max n m) (Nat.le_max_left _ _)
    have h4 := h2 (max n m) (Nat.le_max_right _ _)
    exact Option.some.inj (h3.symm.trans h4)
  subst this
  obtain ⟨ds, _, _, hda⟩ := hspec
  have := hda.hosts.map_right (S := fun e h => ∃ decl, e.host = .ok decl ∧ (∀ n, decl.name = some n → h.1 = n) ∧ h.2.file = decl.file
      ∧ h.2.vars = decl.vars ∧ Connects decl.url h.2.url) (f := id) (fun e h ho => by
    obtain ⟨decl, h1, h2, h3, h4⟩ := ho.decl
    refine ⟨decl, h1, ?_, h3, h2, ?_⟩
    · obtain ⟨_, ⟨decl', h5, _, h6⟩, _⟩ := ho.name
      rw [h1] at h5
      cases h5
      intro n hn
      rw [hn] at h6
      exact h6.symm
    · show Connects decl.url h.2.url
      rw [h4]
      cases decl.url with
      | none => exact ⟨_, rfl⟩
      | some u =>
        refine ⟨fun hu => ⟨C66_connector u hu, fun dispatcher host => ?_⟩, fun hu => ?_⟩
        · have hq : qualifyUrl u = p!"ssh://" ++ u := by
            unfold qualifyUrl hasChar
            rw [if_neg]
            simpa using hu
          show sshCommand dispatcher (some (qualifyUrl u)) host = _
          rw [hq]
          exact (C66_destination dispatcher u host).1
        · have hq : qualifyUrl u = u := by
            unfold qualifyUrl hasChar
            rw [if_pos]
            simpa using hu
          show some (qualifyUrl u) = some u
          rw [hq])
  simpa using this

/-- Hosts given by a name, by a url, by both, and a local one. -/
def Example.mixed : List (Entry HostDecl) :=
  [.str p!"root@web", .dict (some { name := some p!"db", url := some p!"10.0.0.7" }), .decl { name := some p!"pi", url := some p!"ssh://pi@10.0.0.8:2222" },
   .str p!"local:here"]

example : (match declare 6 Example.setOrder Example.mixed none with
    | some (.ok d) => some (d.hosts.map fun h => (h.1, h.2.url))
    | _ => none) = some [(p!"web", some p!"ssh://root@web"), (p!"db", some p!"ssh://10.0.0.7"), (p!"pi", some p!"ssh://pi@10.0.0.8:2222"),
      (p!"here", some p!"local:here")] := by
  decide +kernel

end Verif.Inventory
