/-
Lemmas about the files of modules.
-/
import Verif.Inventory.ModulesSpec
import Verif.Inventory.LoadProps

namespace Verif.Inventory

open Ops

theorem pathJoin_relative {a b : Str} (ha : a ≠ []) (hl : a.getLast? ≠ some 47) (hb : b.head? ≠ some 47) : pathJoin a b = a ++ p!"/" ++ b := by
  have hs : Py.endsWith a p!"/" = false := by
    cases h : Py.endsWith a p!"/" with
    | false => rfl
    | true =>
      unfold Py.endsWith at h
      obtain ⟨t, rfl⟩ := List.isSuffixOf_iff_suffix.mp h
      exact absurd (by simp) hl
  unfold pathJoin
  split
  · exact absurd rfl hb
  · rw [if_neg]
    simp [ha, hs]

theorem pathJoin_absolute {a b : Str} (hb : b.head? = some 47) : pathJoin a b = b := by
  cases b with
  | nil => cases hb
  | cons c r =>
    have : c = 47 := by simpa using hb
    subst this
    rfl

theorem dir_end {base dir : Str} (h : Below dir) : (base ++ p!"/" ++ dir) ≠ [] ∧ (base ++ p!"/" ++ dir).getLast? ≠ some 47 := by
  refine ⟨by simp, ?_⟩
  rw [List.getLast?_append]
  have := h.noSlashAtEnd
  cases hl : dir.getLast? with
  | none => exact absurd (List.getLast?_eq_none_iff.mp hl) h.notEmpty
  | some c =>
    rw [hl] at this
    simpa using this

theorem moduleIn_eq {base dir name : Str} (hb : base ≠ [] ∧ base.getLast? ≠ some 47) (hd : Below dir) (hn : name.head? ≠ some 47) :
    pathJoin (pathJoin base dir) (name ++ p!".py") = moduleIn base dir name := by
  rw [pathJoin_relative hb.1 hb.2 hd.relative, pathJoin_relative (dir_end hd).1 (dir_end hd).2]
  · unfold moduleIn
    simp only [List.append_assoc]
  · cases name with
    | nil => simp
    | cons c r => simpa using hn

theorem explicit_eq {base file : Str} (hb : base ≠ [] ∧ base.getLast? ≠ some 47) : pathJoin base file = explicitFile base file := by
  unfold explicitFile
  split
  · next h => exact pathJoin_absolute h
  · next h => exact pathJoin_relative hb.1 hb.2 h

theorem moduleFile_sources {l : Layout} (hl : l.Usual) {files : Str → Option Body} {inventory : Wrapper} {d : Option Body} {f : Option Str} :
    moduleFile (l.sources files inventory) d f = match f with
      | none => .ok d
      | some f => match files (explicitFile l.base f) with
        | none => .error (.valueError p!"Module file does not exist but was explicitly specified")
        | some b => .ok (some b) := by
  unfold moduleFile
  cases f with
  | none => rfl
  | some f =>
    simp only [Layout.sources, explicit_eq hl.base]
    cases files (explicitFile l.base f) <;> rfl

theorem hostFile_congr {l : Layout} (hl : l.Usual) {files files' : Str → Option Body} {inventory : Wrapper} {name : Str} {decl : HostDecl}
    (hn : name.head? ≠ some 47) (h : files (hostModulePath l name decl) = files' (hostModulePath l name decl)) :
    moduleFile (l.sources files inventory) ((l.sources files inventory).hostFile name) decl.file
      = moduleFile (l.sources files' inventory) ((l.sources files' inventory).hostFile name) decl.file := by
  rw [moduleFile_sources hl, moduleFile_sources hl]
  unfold hostModulePath at h
  cases hf : decl.file with
  | none =>
    rw [hf] at h
    simp only [Layout.sources, Layout.hostModuleFile, moduleIn_eq hl.base hl.hostsDir hn]
    exact congrArg _ h
  | some f =>
    rw [hf] at h
    simp only at h ⊢
    rw [h]

theorem groupFile_congr {l : Layout} (hl : l.Usual) {files files' : Str → Option Body} {inventory : Wrapper} {name : Str} {decl : GroupDecl}
    (hn : name.head? ≠ some 47) (h : files (groupModulePath l name decl) = files' (groupModulePath l name decl)) :
    moduleFile (l.sources files inventory) ((l.sources files inventory).groupFile name) decl.file
      = moduleFile (l.sources files' inventory) ((l.sources files' inventory).groupFile name) decl.file := by
  rw [moduleFile_sources hl, moduleFile_sources hl]
  unfold groupModulePath at h
  cases hf : decl.file with
  | none =>
    rw [hf] at h
    simp only [Layout.sources, Layout.groupModuleFile, moduleIn_eq hl.base hl.groupsDir hn]
    exact congrArg _ h
  | some f =>
    rw [hf] at h
    simp only at h ⊢
    rw [h]

theorem loadGroups_congr {src src' : Sources} (hinv : src.inventory = src'.inventory) {c : Consts} {d : Declared} : ∀ {gs : List Str} {l : Loading},
    (∀ g ∈ gs, ∀ gd, d.groups.lookup g = some gd → moduleFile src (src.groupFile gd.name) gd.file = moduleFile src' (src'.groupFile gd.name) gd.file) →
    loadGroups src c d l gs = loadGroups src' c d l gs
  | [], l, _ => rfl
  | g :: gs, l, h => by
    have hn : loadNext src c d l g = loadNext src' c d l g := by
      unfold loadNext
      cases hg : d.groups.lookup g with
      | none => rfl
      | some gd =>
        have hv : allVars src c gd.name = allVars src' c gd.name := by unfold allVars; rw [hinv]
        simp only [loadGroup, h g (by simp) gd hg, hv]
    rw [loadGroups, loadGroups, hn]
    cases loadNext src' c d l g with
    | error e => rfl
    | ok l' => exact loadGroups_congr hinv fun g' hg' => h g' (by simp [hg'])

theorem instanciateHosts_congr {src src' : Sources} (hinv : src.inventory = src'.inventory) {c : Str → Consts} {d : Declared} : ∀ {hs : Decls HostDecl} {heap : Heap},
    (∀ h ∈ hs, moduleFile src (src.hostFile h.1) h.2.file = moduleFile src' (src'.hostFile h.1) h.2.file
      ∧ ∀ g ∈ h.2.groups, ∀ gd, d.groups.lookup g = some gd → moduleFile src (src.groupFile gd.name) gd.file = moduleFile src' (src'.groupFile gd.name) gd.file) →
    instanciateHosts src c d heap hs = instanciateHosts src' c d heap hs
  | [], _, _ => rfl
  | (name, decl) :: hs, heap, h => by
    have h1 := h (name, decl) (by simp)
    have hi : instanciateHost src (c name) d heap name decl = instanciateHost src' (c name) d heap name decl := by
      unfold instanciateHost
      have hg : ∀ l, loadGroups src (c name) d l (groupsInOrder d decl) = loadGroups src' (c name) d l (groupsInOrder d decl) := fun l =>
        loadGroups_congr hinv fun g hg => h1.2 g (by simpa using (List.mem_filter.mp hg).2)
      simp only [hg, loadHost, h1.1]
    rw [instanciateHosts, instanciateHosts, hi]
    cases instanciateHost src' (c name) d heap name decl with
    | error e => rfl
    | ok r =>
      simp only [bind, Except.bind]
      rw [instanciateHosts_congr hinv fun x hx => h x (by simp [hx])]

end Verif.Inventory
