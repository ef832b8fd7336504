/-
A small concrete host, used to show that the hypotheses of the theorems are met by non-trivial cases.
-/
import Verif.Remote.Lemmas

namespace Verif.Remote.Example

def dirNode (perm : Nat) : Node := { kind := .dir, perm, uid := 0, gid := 0, mtime := 1000, ctime := 1000 }

/-- Files and directories: `/`, `/etc`, `/etc/motd`, `/home` (setgid, group users), `/link -> /etc`, `/dangling -> nowhere`. -/
def table : List (Loc × Node) :=
  [([], dirNode 0o755),
   ([p!"etc"], dirNode 0o755),
   ([p!"etc", p!"motd"], { kind := .file [104, 105, 10], perm := 0o644, uid := 1000, gid := 100, mtime := 5, ctime := 6 }),
   ([p!"home"], { dirNode 0o2775 with gid := 100 }),
   ([p!"link"], { dirNode 0o777 with kind := .link p!"/etc" }),
   ([p!"dangling"], { dirNode 0o777 with kind := .link p!"nowhere" })]

def fs : Loc → Option Node := fun l => (table.find? (·.1 == l)).map (·.2)

def root : PwEntry := { name := p!"root", uid := 0, gid := 0, gecos := [], home := p!"/root", shell := p!"/bin/sh" }
def alice : PwEntry := { name := p!"alice", uid := 1000, gid := 100, gecos := p!"A", home := p!"/home/alice", shell := p!"/bin/sh" }
def rootG : GrEntry := { name := p!"root", gid := 0, members := [] }
def usersG : GrEntry := { name := p!"users", gid := 100, members := [p!"alice"] }

def world : World where
  fs := fs
  users := [root, alice]
  groups := [rootG, usersG]
  shadow := [(p!"root", p!"*")]
  env := [(p!"HOME", p!"/root")]
  uid := 0
  gid := 0
  supp := [0, 10]
  cwd := []
  clock := 2000
  packages := [p!"bash"]
  units := []
  started := []

/-- Programs print their arguments and do nothing else; `false` exits with 1; `missing` cannot be started. -/
def sys : Sys where
  fault := fun _ _ => none
  written := fun _ _ => 0
  exec := fun p w =>
    if p.argv.head? = some p!"missing" then (.failed (osErr ENOENT p!"missing"), w)
    else if p.argv.head? = some p!"false" then (.done [] [] 1, w)
    else (.done [111, 107] [] 0, w)
  sha512 := fun _ => List.replicate 64 7

theorem plain_lit {s : Str} (h : (s.all fun c => decide (c < 0xD800)) = true) (hl : s.length < 1000) : Plain s :=
  ⟨text_lit h, by unfold Modest; omega⟩

theorem table_sane : ∀ e ∈ table, e.2.Sane := by
  intro e he
  simp only [table, List.mem_cons, List.not_mem_nil, or_false] at he
  rcases he with rfl | rfl | rfl | rfl | rfl | rfl <;>
  exact ⟨by decide, by unfold IdOk; decide, by unfold IdOk; decide, by unfold TimeOk; decide, by unfold TimeOk; decide,
    by intro c h; cases h <;> (unfold Modest; decide), by intro t h; cases h <;> (unfold Modest; decide)⟩

theorem world_sane : world.Sane where
  node := by
    intro l n h
    simp only [world, fs, Option.map_eq_some_iff] at h
    obtain ⟨e, he, rfl⟩ := h
    exact table_sane e (List.mem_of_find?_eq_some he)
  users := by
    intro e he
    simp only [world, List.mem_cons, List.not_mem_nil, or_false] at he
    rcases he with rfl | rfl <;>
    exact ⟨plain_lit (by decide) (by decide), plain_lit (by decide) (by decide), plain_lit (by decide) (by decide),
      plain_lit (by decide) (by decide), by unfold IdOk; decide, by unfold IdOk; decide, by unfold NoNul; decide⟩
  groups := by
    intro e he
    simp only [world, List.mem_cons, List.not_mem_nil, or_false] at he
    rcases he with rfl | rfl
    · exact ⟨plain_lit (by decide) (by decide), fun m hm => (by cases hm), by unfold Modest; decide, by unfold IdOk; decide,
        by unfold NoNul; decide⟩
    · refine ⟨plain_lit (by decide) (by decide), fun m hm => ?_, by unfold Modest; decide, by unfold IdOk; decide,
        by unfold NoNul; decide⟩
      simp only [usersG, List.mem_cons, List.not_mem_nil, or_false] at hm
      subst hm
      exact plain_lit (by decide) (by decide)
  ngroups := by unfold Modest; decide
  shadow := by
    intro e he
    simp only [world, List.mem_cons, List.not_mem_nil, or_false] at he
    subst he
    exact plain_lit (by decide) (by decide)
  env := by
    intro e he
    simp only [world, List.mem_cons, List.not_mem_nil, or_false] at he
    subst he
    exact plain_lit (by decide) (by decide)
  uid := by unfold IdOk; decide
  gid := by unfold IdOk; decide
  clock := by unfold TimeOk; decide

theorem sys_sane : sys.Sane where
  fault := by intro w c e h; cases h
  failed := by
    intro p w e w' h
    simp only [sys] at h
    split at h
    · cases h
      exact ⟨by decide, plain_lit (by decide) (by decide), plain_lit (by decide) (by decide)⟩
    · split at h <;> cases h
  done := by
    intro p w o e c w' h
    simp only [sys] at h
    split at h
    · cases h
    · split at h <;> (cases h; exact ⟨by unfold Modest; decide, by unfold Modest; decide, by decide⟩)
  world := by
    intro p w hw
    simp only [sys]
    split
    · exact hw
    · split <;> exact hw
  sha512 := by intro c; simp [sys]

end Verif.Remote.Example
