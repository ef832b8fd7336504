/-
C51, C52: users and groups.
-/
import Verif.Ops.GroupLemmas
import Verif.Ops.RepeatProps
import Verif.Ops.FrameProps
import Verif.Ops.Example
import Verif.Py.NumLemmas

namespace Verif.Ops

open Script Remote

/-! ### C52 -/

/-- C52: what `group` achieves. If it ends normally, the group is present, with the requested gid and its members as before; or it
is absent, as requested. (If no gid is given, that of an existing group is kept.) Names that consist of digits are excluded since they
are taken for gids, and so is, in `GroupAs`, the gid 0. -/
theorem C52_converges_partial (sys : Sys) (ht : GroupTools sys) (name : Str) (hname : Py.parseInt 10 name = none) (present : Bool) (gid : Option Int)
    (system check : Bool) (env : Env) (hdry : env.dry = false) (st : St) (w : World) (lost : Nat → Option Bool) (r : OpResult)
    (hr : (perform sys lost (group name present gid system check) env st w).1 = .ok r) :
    r.success = true ∧
      if present then GroupAs name gid w (perform sys lost (group name present gid system check) env st w).2
      else groupNamed (perform sys lost (group name present gid system check) env st w).2 name = none := by
  have h := post_ok (group_post ht hname) hr
  exact ⟨h.1.1, h.2 hdry⟩

/-- C52: other groups are untouched, however the operation ends. -/
theorem C52_other_groups (sys : Sys) (ht : GroupTools sys) (name : Str) (hname : Py.parseInt 10 name = none) (present : Bool) (gid : Option Int)
    (system check : Bool) (env : Env) (st : St) (w : World) (lost : Nat → Option Bool) :
    OtherGroupsSame name w (perform sys lost (group name present gid system check) env st w).2 :=
  post_world (group_post ht hname) fun _ _ _ h => h.1.2

/-- C52: nothing is done if the group is as requested. -/
theorem C52_nothing_to_do (sys : Sys) (name : Str) (hname : Py.parseInt 10 name = none) (present : Bool) (gid : Option Int) (system check : Bool)
    (env : Env) (st : St) (w : World)
    (h : if present then ∃ e, groupNamed w name = some e ∧ (∀ i, gid = some i → (e.gid : Int) = i) else groupNamed w name = none) :
    NothingToDo sys (group name present gid system check) env st w := by
  intro lost
  have hc := group_calm (sys := sys) (lost := lost) (env := env) (st := st) (w := w) hname (present := present) (gid := gid) (system := system) (check := check) (by
    cases present with
    | false => exact h
    | true => obtain ⟨e, he, hi⟩ := h; exact ⟨e, he, fun i h _ => hi i h⟩)
  have hs : Same w (perform sys lost (group name present gid system check) env st w).2 := post_world hc (fun _ _ _ h => h.2)
  exact ⟨untouched_same hs, fun r hr => (post_ok hc hr).1⟩

/-- C52: once it has succeeded, doing it again has no effect and reports no change. -/
theorem C52_idempotent (sys : Sys) (ht : GroupTools sys) (name : Str) (hname : Py.parseInt 10 name = none) (present : Bool) (gid : Option Int)
    (system check : Bool) (env : Env) (hdry : env.dry = false) (st : St) (w : World) (lost : Nat → Option Bool) (r : OpResult)
    (hr : (perform sys lost (group name present gid system check) env st w).1 = .ok r) :
    NothingToDo sys (group name present gid system check) env st (perform sys lost (group name present gid system check) env st w).2 := by
  have h := (post_ok (group_post ht hname) hr).2 hdry
  generalize (perform sys lost (group name present gid system check) env st w).2 = w' at h
  intro lost
  have hc := group_calm (sys := sys) (lost := lost) (env := env) (st := st) (w := w') hname (present := present) (gid := gid) (system := system) (check := check) (by
    cases present with
    | false => exact h
    | true => obtain ⟨e, he, hi, _⟩ := h; exact ⟨e, he, hi⟩)
  have hs : Same w' (perform sys lost (group name present gid system check) env st w').2 := post_world hc (fun _ _ _ h => h.2)
  exact ⟨untouched_same hs, fun r hr => (post_ok hc hr).1⟩

/-! A host with the tools. -/

namespace Example

/-- The number that is written like this. -/
@[irreducible] def gidOf (s : Str) : Option Nat := (List.range 2000).find? fun n => Py.intStr (n : Int) = s

theorem intStr_nat {n : Nat} {i : Int} (h : Py.intStr (n : Int) = Py.intStr i) : i = n := by
  cases i with
  | ofNat m => exact congrArg Int.ofNat (Py.natStr_injective (.inr rfl) h).symm
  | negSucc m =>
    exfalso
    have hm : (45 : Nat) ∈ Py.natStr 10 n := by
      have : Py.natStr 10 n = 45 :: _ := h
      rw [this]; simp
    have := Py.natStr_chars (by decide) (by decide) n 45 hm
    omega

theorem gidOf_eq {s : Str} {n : Nat} {i : Int} (hs : Py.parseInt 10 s = some i) (h : gidOf s = some n) : i = n := by
  unfold gidOf at h
  have hn : Py.intStr (n : Int) = s := by simpa using List.find?_some h
  rw [← hn, Py.parseInt_intStr] at hs
  exact (Option.some.inj hs).symm

/-- A gid that is not in use. -/
def freeGid (w : World) : Nat := (w.groups.map (·.gid)).foldr max 0 + 1

def addGroup (name : Str) (g : Nat) (w : World) : ExecRes × World :=
  if w.groups.any (·.name == name) then (.done [] [] 9, w) else (.done [] [] 0, { w with groups := w.groups ++ [⟨name, g, []⟩] })

def groupaddExec (args : List Str) (w : World) : ExecRes × World :=
  match args with
  | [_, name] => addGroup name (freeGid w) w
  | [o, g, _, name] =>
    if o = p!"--gid" then
      match gidOf g with
      | none => (.done [] [] 3, w)
      | some g => addGroup name g w
    else (.done [] [] 2, w)
  | _ => (.done [] [] 2, w)

def groupExec (p : Proc) (w : World) : ExecRes × World :=
  match p.argv with
  | c :: args =>
    if c = p!"groupadd" then groupaddExec (if args.head? = some p!"--system" then args.tail else args) w
    else if c = p!"groupmod" then
      match args with
      | [_, g, _, name] =>
        match gidOf g with
        | none => (.done [] [] 3, w)
        | some g => (.done [] [] 0, { w with groups := w.groups.map fun e => if e.name = name then { e with gid := g } else e })
      | _ => (.done [] [] 2, w)
    else if c = p!"groupdel" then
      match args with
      | [_, name] => (.done [] [] 0, { w with groups := w.groups.filter fun e => e.name ≠ name })
      | _ => (.done [] [] 2, w)
    else (.failed { errno := ENOENT, strerror := [], msg := [] }, w)
  | [] => (.failed { errno := ENOENT, strerror := [], msg := [] }, w)

/-- The example host, with the tools for groups. -/
def groupSys : Sys := { sys with exec := groupExec }

theorem addGroup_done {name : Str} {g : Nat} {w w' : World} {out err : Bytes} {code : Int} (h : addGroup name g w = (.done out err code, w')) :
    (code = 0 → (∀ e ∈ w.groups, e.name ≠ name) ∧ w'.groups = w.groups ++ [⟨name, g, []⟩])
      ∧ ∀ e : GrEntry, e.name ≠ name → (e ∈ w'.groups ↔ e ∈ w.groups) := by
  unfold addGroup at h
  split at h
  · cases h
    exact ⟨fun h => (by cases h), fun _ _ => Iff.rfl⟩
  · rename_i hn
    cases h
    refine ⟨fun _ => ⟨?_, rfl⟩, fun e he => ?_⟩
    · intro e he hc
      exact hn (List.any_eq_true.mpr ⟨e, he, by simp [hc]⟩)
    · simp only [List.mem_append, List.mem_singleton]
      exact ⟨fun h => h.elim id (fun h => by rw [h] at he; exact absurd rfl he), .inl⟩

theorem groupTools : GroupTools groupSys where
  add := by
    intro p w out err w' system gid name hp h
    have h : groupExec p w = _ := h
    unfold groupExec at h
    rw [hp] at h
    cases gid with
    | none =>
      have h : addGroup name (freeGid w) w = (.done out err 0, w') := by rw [← h]; cases system <;> rfl
      obtain ⟨h1, h2⟩ := (addGroup_done h).1 rfl
      exact ⟨h1, _, fun _ i h => (by cases h), h2⟩
    | some i =>
      have h : (match gidOf i with
          | none => (.done [] [] 3, w)
          | some g => addGroup name g w) = (ExecRes.done out err 0, w') := by rw [← h]; cases system <;> rfl
      cases hg : gidOf i with
      | none => rw [hg] at h; cases h
      | some g =>
        rw [hg] at h
        obtain ⟨h1, h2⟩ := (addGroup_done h).1 rfl
        refine ⟨h1, g, fun x j hx hj => ?_, h2⟩
        cases hx
        exact gidOf_eq hj hg
  modify := by
    intro p w out err w' x gid name hp hgid h
    have h : groupExec p w = _ := h
    unfold groupExec at h
    rw [hp] at h
    have h : (match gidOf x with
        | none => (.done [] [] 3, w)
        | some g => (.done [] [] 0, { w with groups := w.groups.map fun e => if e.name = name then { e with gid := g } else e })) = (ExecRes.done out err 0, w') := h
    cases hg : gidOf x with
    | none => rw [hg] at h; cases h
    | some g =>
      rw [hg] at h
      cases h
      exact ⟨g, gidOf_eq hgid hg, rfl⟩
  delete := by
    intro p w out err w' name hp h
    have h : groupExec p w = _ := h
    unfold groupExec at h
    rw [hp] at h
    cases h
    rfl
  others := by
    intro p w out err code w' name _ hl h e he
    have h : groupExec p w = _ := h
    unfold groupExec at h
    have add : ∀ args : List Str, args.getLast? = some name ∨ args = [] → groupaddExec args w = (.done out err code, w') → (e ∈ w'.groups ↔ e ∈ w.groups) := by
      intro args ha hx
      unfold groupaddExec at hx
      split at hx
      · simp at ha; subst ha; exact (addGroup_done hx).2 e he
      · simp at ha; subst ha
        split at hx
        · split at hx
          · cases hx; rfl
          · exact (addGroup_done hx).2 e he
        · cases hx; rfl
      · cases hx; rfl
    split at h
    · rename_i c args hc
      rw [hc] at hl
      have hargs : args.getLast? = some name ∨ args = [] := by
        cases args with
        | nil => exact .inr rfl
        | cons a l => exact .inl (by simpa using hl)
      split at h
      · refine add _ ?_ h
        split
        · rcases hargs with ha | ha
          · cases args with
            | nil => cases ha
            | cons a l =>
              cases l with
              | nil => exact .inr rfl
              | cons b l => exact .inl (by simpa using ha)
          · subst ha; exact .inr rfl
        · exact hargs
      · split at h
        · split at h
          · split at h
            · cases h; rfl
            · cases h
              simp at hargs
              subst hargs
              simp only [List.mem_map]
              constructor
              · rintro ⟨a, ha, hae⟩
                split at hae
                · rename_i hn; subst hae; exact absurd hn he
                · rw [← hae]; exact ha
              · intro h; exact ⟨e, h, by rw [if_neg he]⟩
          · cases h; rfl
        · split at h
          · split at h
            · cases h
              simp at hargs
              subst hargs
              simp [he]
            · cases h; rfl
          · cases h
    · cases h

/-- What an operation reports and which groups there are afterwards. -/
def groupsAfter (op : Op OpResult) (w : World) : Option (Bool × Bool) × List (Str × Nat × List Str) :=
  (match (perform groupSys always op env st w).1 with
    | .ok r => some (r.success, r.changed)
    | .error _ => none,
   (perform groupSys always op env st w).2.groups.map fun e => (e.name, e.gid, e.members))

/-- Cases that meet the hypotheses: a new group, a new gid for an existing group, a removed group. -/
example : Py.parseInt 10 p!"users" = none := by decide
example : groupsAfter (group p!"wheel" true (some 10) true true) host = (some (true, true), [(p!"root", 0, []), (p!"users", 100, [p!"alice"]), (p!"wheel", 10, [])]) := by
  decide +kernel
example : groupsAfter (group p!"users" true (some 101) false true) host = (some (true, true), [(p!"root", 0, []), (p!"users", 101, [p!"alice"])]) := by decide +kernel
example : groupsAfter (group p!"users" false none false true) host = (some (true, true), [(p!"root", 0, [])]) := by decide +kernel

end Example

/-- C52, the part that is false: the gid 0 counts as no gid; the group keeps its own, and success is reported. -/
theorem C52_gid_zero_refuted :
    Example.groupsAfter (group p!"users" true (some 0) false true) Example.host
      = (some (true, false), [(p!"root", 0, []), (p!"users", 100, [p!"alice"])]) := by decide +kernel

end Verif.Ops
