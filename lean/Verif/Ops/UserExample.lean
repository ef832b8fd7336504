/-
A host with useradd, usermod and userdel, used to show that the hypotheses of the theorems about `user` are met by non-trivial cases.
-/
import Verif.Ops.UserOpLemmas
import Verif.Ops.AccountProps

namespace Verif.Ops.Example

open Script Remote

/-- Splits at commas. -/
def splitComma : Str → List Str
  | [] => [[]]
  | c :: s =>
    if c = 44 then [] :: splitComma s
    else match splitComma s with
      | [] => [[c]]
      | x :: xs => (c :: x) :: xs

theorem splitComma_plain {x : Str} (h : 44 ∉ x) : splitComma x = [x] := by
  induction x with
  | nil => rfl
  | cons c s ih =>
    simp only [List.mem_cons, not_or] at h
    unfold splitComma
    rw [if_neg (Ne.symm h.1), ih h.2]

theorem splitComma_append {x s : Str} (h : 44 ∉ x) : splitComma (x ++ 44 :: s) = x :: splitComma s := by
  induction x with
  | nil => simp [splitComma]
  | cons c x ih =>
    simp only [List.mem_cons, not_or] at h
    rw [List.cons_append, splitComma, if_neg (Ne.symm h.1), ih h.2]

theorem splitComma_join : ∀ {l : List Str}, l ≠ [] → (∀ x ∈ l, 44 ∉ x) → splitComma (Py.join p!"," l) = l
  | [], h, _ => absurd rfl h
  | [x], _, h => splitComma_plain (h x (by simp))
  | x :: y :: r, _, h => by
    have : Py.join p!"," (x :: y :: r) = x ++ 44 :: Py.join p!"," (y :: r) := by simp [Py.join]
    rw [this, splitComma_append (h x (by simp)), splitComma_join (by simp) fun z hz => h z (List.mem_cons_of_mem _ hz)]

/-- The group with the user as a member or not. -/
def setMember (name : Str) (b : Bool) (g : GrEntry) : GrEntry :=
  { g with members := if b then (if g.members.contains name then g.members else g.members ++ [name]) else g.members.filter (· != name) }

theorem regroups_set (name : Str) (P : GrEntry → Bool) (Q : GrEntry → Prop) (h : ∀ g, P g = true ↔ Q g) : Regroups name Q fun g => setMember name (P g) g := by
  intro g
  refine ⟨rfl, rfl, ?_, ?_⟩
  · intro m hm
    unfold setMember
    simp only
    split
    · split
      · rfl
      · simp [hm]
    · simp [hm]
  · rw [← h g]
    unfold setMember
    simp only
    cases P g with
    | false => simp
    | true =>
      simp only [if_true, iff_true]
      split
      · rename_i h; exact List.contains_iff_mem.mp h
      · simp

/-- What is known so far of a call of useradd, with the uid already read. -/
structure Parsed where
  uid : Option Nat := none
  primary : Option Str := none
  groups : List Str := []
  comment : Option Str := none
  home : Str := []
  shell : Str := []
  hash : Option Str := none

/-- Reads the options of useradd. -/
def parse (acc : Parsed) : List Str → Option Parsed
  | [] => none
  | o :: rest =>
    if o = p!"--" then some acc
    else if o = p!"--system" then parse acc rest
    else if o = p!"--user-group" then parse acc rest
    else if o = p!"--no-user-group" then parse acc rest
    else if o = p!"--no-create-home" then parse acc rest
    else match rest with
      | [] => none
      | v :: rest =>
        if o = p!"--uid" then match gidOf v with
          | none => none
          | some n => parse { acc with uid := some n } rest
        else if o = p!"--gid" then parse { acc with primary := some v } rest
        else if o = p!"--groups" then parse { acc with groups := splitComma v } rest
        else if o = p!"--comment" then parse { acc with comment := some v } rest
        else if o = p!"--home-dir" then parse { acc with home := v } rest
        else if o = p!"--shell" then parse { acc with shell := v } rest
        else if o = p!"--password" then parse { acc with hash := some v } rest
        else none

/-- A uid that is not in use. -/
def freeUid (w : World) : Nat := (w.users.map (·.uid)).foldr max 0 + 1

/-- The group with this name, or this gid. -/
def groupGiven (w : World) (x : Str) : Option GrEntry :=
  match groupNamed w x with
  | some g => some g
  | none => match gidOf x with
    | some n => groupWithGid w n
    | none => none

theorem groupGiven_plain {w : World} {x : Str} (h : Py.parseInt 10 x = none) : groupGiven w x = groupNamed w x := by
  have hg : gidOf x = none := by
    cases hn : gidOf x with
    | none => rfl
    | some n =>
      unfold gidOf at hn
      have hx : Py.intStr (n : Int) = x := by simpa using List.find?_some hn
      have := Py.parseInt_natStr (b := 10) (.inr rfl) n
      rw [show Py.natStr 10 n = x from hx, h] at this
      cases this
  unfold groupGiven
  rw [hg]
  cases groupNamed w x <;> rfl

/-- The databases after useradd. -/
def addUser (name : Str) (u : Parsed) (w : World) : ExecRes × World :=
  if w.users.any (·.name == name) then (.done [] [] 9, w)
  else if !u.groups.all (fun x => w.groups.any (·.name == x)) then (.done [] [] 6, w)
  else
    let groups := w.groups.map fun g => setMember name (u.groups.contains g.name || g.members.contains name) g
    let finish (gid : Nat) (groups : List GrEntry) : ExecRes × World :=
      (.done [] [] 0, { w with
        users := w.users ++ [{ name, uid := u.uid.getD (freeUid w), gid, gecos := u.comment.getD [], home := u.home, shell := u.shell }]
        shadow := (name, u.hash.getD p!"!") :: w.shadow.filter (·.1 != name)
        groups })
    match u.primary with
    | none => if w.groups.any (·.name == name) then (.done [] [] 9, w) else finish (freeGid w) (groups ++ [{ name, gid := freeGid w, members := [] }])
    | some x => match groupNamed w x with
      | none => (.done [] [] 6, w)
      | some g => finish g.gid groups

/-- The entry of the user, changed. -/
def updUser (name : Str) (f : PwEntry → PwEntry) (w : World) : ExecRes × World :=
  (.done [] [] 0, { w with users := w.users.map fun e => if e.name = name then f e else e })

def modUser (name o v : Str) (w : World) : ExecRes × World :=
  if !w.users.any (·.name == name) then (.done [] [] 6, w)
  else if o = p!"--uid" then match gidOf v with
    | none => (.done [] [] 3, w)
    | some n => updUser name (fun e => { e with uid := n }) w
  else if o = p!"--gid" then match groupGiven w v with
    | none => (.done [] [] 6, w)
    | some g => updUser name (fun e => { e with gid := g.gid }) w
  else if o = p!"--groups" then
    if (splitComma v).all (fun x => w.groups.any (·.name == x)) then
      (.done [] [] 0, { w with groups := w.groups.map fun g => setMember name ((splitComma v).contains g.name) g })
    else (.done [] [] 6, w)
  else if o = p!"--comment" then updUser name (fun e => { e with gecos := v }) w
  else if o = p!"--home" then updUser name (fun e => { e with home := v }) w
  else if o = p!"--shell" then updUser name (fun e => { e with shell := v }) w
  else if o = p!"--password" then (.done [] [] 0, { w with shadow := (name, v) :: w.shadow.filter (·.1 != name) })
  else (.done [] [] 2, w)

def delUser (name : Str) (w : World) : ExecRes × World :=
  if !w.users.any (·.name == name) then (.done [] [] 6, w)
  else (.done [] [] 0, { w with
    users := w.users.filter (·.name != name)
    shadow := w.shadow.filter (·.1 != name)
    groups := w.groups.map (setMember name false) })

def userExec (p : Proc) (w : World) : ExecRes × World :=
  match p.argv with
  | [] => (.done [] [] 2, w)
  | c :: args =>
    match args.getLast? with
    | none => (.done [] [] 2, w)
    | some name =>
      if c = p!"useradd" then match parse {} args with
        | none => (.done [] [] 2, w)
        | some u => addUser name u w
      else if c = p!"usermod" then match args with
        | [o, v, _, _] => modUser name o v w
        | _ => (.done [] [] 2, w)
      else if c = p!"userdel" then delUser name w
      else (.failed { errno := ENOENT, strerror := [], msg := [] }, w)

/-- The example host, with the tools for users. -/
def userSys : Sys := { sys with exec := userExec }

/-! Reading the options gives back what was asked for. -/

theorem parse_system (acc : Parsed) (b : Bool) (rest : List Str) : parse acc ((if b then [p!"--system"] else []) ++ rest) = parse acc rest := by
  cases b
  · rfl
  · rw [if_pos rfl, List.cons_append, parse.eq_def]; rfl

theorem parse_value (acc : Parsed) (o v : Str) (rest : List Str) (ho : o ≠ p!"--" ∧ o ≠ p!"--system" ∧ o ≠ p!"--user-group" ∧ o ≠ p!"--no-user-group" ∧ o ≠ p!"--no-create-home") :
    parse acc (o :: v :: rest) = (if o = p!"--uid" then match gidOf v with
          | none => none
          | some n => parse { acc with uid := some n } rest
        else if o = p!"--gid" then parse { acc with primary := some v } rest
        else if o = p!"--groups" then parse { acc with groups := splitComma v } rest
        else if o = p!"--comment" then parse { acc with comment := some v } rest
        else if o = p!"--home-dir" then parse { acc with home := v } rest
        else if o = p!"--shell" then parse { acc with shell := v } rest
        else if o = p!"--password" then parse { acc with hash := some v } rest
        else none) := by
  rw [parse]
  rw [if_neg ho.1, if_neg ho.2.1, if_neg ho.2.2.1, if_neg ho.2.2.2.1, if_neg ho.2.2.2.2]

theorem parse_argv {u : NewUser} {r : Parsed} (hg : ∀ g ∈ u.groups, PlainName g) (h : parse {} (u.argv.drop 1) = some r) :
    (∀ x i, u.uid = some x → Py.parseInt 10 x = some i → ∃ n : Nat, r.uid = some n ∧ i = n) ∧ r.primary = u.primary ∧ r.groups = u.groups ∧ r.comment = u.comment ∧ r.home = u.home ∧ r.shell = u.shell
      ∧ r.hash = u.hash := by
  unfold NewUser.argv at h
  simp only [List.append_assoc, List.cons_append, List.nil_append, List.drop_succ_cons, List.drop_zero] at h
  rw [parse_system] at h
  have huid : ∃ n : Option Nat, (∀ x i, u.uid = some x → Py.parseInt 10 x = some i → ∃ m : Nat, n = some m ∧ i = m) ∧ parse { uid := n } ((match u.primary with | some g => [p!"--no-user-group", p!"--gid", g] | none => [p!"--user-group"])
      ++ ((if u.groups = [] then [] else [p!"--groups", Py.join p!"," u.groups]) ++ ((match u.comment with | some c => [p!"--comment", c] | none => [])
      ++ p!"--no-create-home" :: p!"--home-dir" :: u.home :: p!"--shell" :: u.shell :: ((match u.hash with | some h => [p!"--password", h] | none => []) ++ [p!"--", u.name])))) = some r := by
    cases hu : u.uid with
    | none => rw [hu] at h; exact ⟨none, fun _ i h => (by cases h), h⟩
    | some i =>
      rw [hu] at h
      simp only [List.cons_append, List.nil_append] at h
      rw [parse_value _ _ _ _ (by decide), if_pos rfl] at h
      cases hgi : gidOf i with
      | none => rw [hgi] at h; cases h
      | some n =>
        rw [hgi] at h
        exact ⟨some n, fun x j hx hj => ⟨n, rfl, by cases hx; exact gidOf_eq hj hgi⟩, h⟩
  obtain ⟨n, hn, h⟩ := huid
  have hprim : ∀ rest, parse { uid := n } ((match u.primary with | some g => [p!"--no-user-group", p!"--gid", g] | none => [p!"--user-group"]) ++ rest) = parse { uid := n, primary := u.primary } rest := by
    intro rest
    cases u.primary with
    | none => rw [List.cons_append, parse.eq_def]; rfl
    | some g =>
      simp only [List.cons_append, List.nil_append]
      rw [parse, if_neg (by decide), if_neg (by decide), if_neg (by decide), if_pos rfl, parse_value _ _ _ _ (by decide), if_neg (by decide), if_pos rfl]
  rw [hprim] at h
  have hgrp : ∀ rest, parse { uid := n, primary := u.primary } ((if u.groups = [] then [] else [p!"--groups", Py.join p!"," u.groups]) ++ rest)
      = parse { uid := n, primary := u.primary, groups := u.groups } rest := by
    intro rest
    by_cases h0 : u.groups = []
    · rw [if_pos h0, h0]; rfl
    · rw [if_neg h0]
      simp only [List.cons_append, List.nil_append]
      rw [parse_value _ _ _ _ (by decide), if_neg (by decide), if_neg (by decide), if_pos rfl, splitComma_join h0 fun x hx => (hg x hx).2.1]
  rw [hgrp] at h
  have hcom : ∀ rest, parse { uid := n, primary := u.primary, groups := u.groups } ((match u.comment with | some c => [p!"--comment", c] | none => []) ++ rest)
      = parse { uid := n, primary := u.primary, groups := u.groups, comment := u.comment } rest := by
    intro rest
    cases u.comment with
    | none => rfl
    | some c =>
      simp only [List.cons_append, List.nil_append]
      rw [parse_value _ _ _ _ (by decide), if_neg (by decide), if_neg (by decide), if_neg (by decide), if_pos rfl]
  rw [hcom] at h
  rw [parse, if_neg (by decide), if_neg (by decide), if_neg (by decide), if_neg (by decide), if_pos rfl] at h
  rw [parse_value _ _ _ _ (by decide), if_neg (by decide), if_neg (by decide), if_neg (by decide), if_neg (by decide), if_pos rfl] at h
  rw [parse_value _ _ _ _ (by decide), if_neg (by decide), if_neg (by decide), if_neg (by decide), if_neg (by decide), if_neg (by decide), if_pos rfl] at h
  have hpw : parse { uid := n, primary := u.primary, groups := u.groups, comment := u.comment, home := u.home, shell := u.shell }
      ((match u.hash with | some h => [p!"--password", h] | none => []) ++ [p!"--", u.name])
      = some { uid := n, primary := u.primary, groups := u.groups, comment := u.comment, home := u.home, shell := u.shell, hash := u.hash } := by
    cases u.hash with
    | none => rfl
    | some c =>
      simp only [List.cons_append, List.nil_append]
      rw [parse_value _ _ _ _ (by decide), if_neg (by decide), if_neg (by decide), if_neg (by decide), if_neg (by decide), if_neg (by decide), if_neg (by decide), if_pos rfl]
      rfl
  have h : parse { uid := n, primary := u.primary, groups := u.groups, comment := u.comment, home := u.home, shell := u.shell }
      ((match u.hash with | some h => [p!"--password", h] | none => []) ++ [p!"--", u.name]) = some r := h
  rw [hpw] at h
  cases h
  exact ⟨hn, rfl, rfl, rfl, rfl, rfl, rfl⟩

/-! The tools keep to their specification. -/

theorem others_groups {name : Str} {w w' : World} {φ : GrEntry → GrEntry} {P : GrEntry → Prop} {extra : List GrEntry} (hφ : Regroups name P φ)
    (hg : w'.groups = w.groups.map φ ++ extra) (he : ∀ g ∈ extra, g.name = name) :
    (∀ g i, g ≠ name → ((∃ e ∈ w'.groups, e.name = g ∧ e.gid = i) ↔ ∃ e ∈ w.groups, e.name = g ∧ e.gid = i))
    ∧ (∀ g m, g ≠ name → m ≠ name → ((∃ e ∈ w'.groups, e.name = g ∧ m ∈ e.members) ↔ ∃ e ∈ w.groups, e.name = g ∧ m ∈ e.members)) := by
  rw [hg]
  constructor
  · intro g i hne
    constructor
    · rintro ⟨e, h, rfl, rfl⟩
      rcases List.mem_append.mp h with h | h
      · obtain ⟨e0, h0, rfl⟩ := List.mem_map.mp h
        exact ⟨e0, h0, (hφ e0).1.symm, (hφ e0).2.1.symm⟩
      · exact absurd (he e h) hne
    · rintro ⟨e, h, rfl, rfl⟩
      exact ⟨φ e, List.mem_append.mpr (.inl (List.mem_map.mpr ⟨e, h, rfl⟩)), (hφ e).1, (hφ e).2.1⟩
  · intro g m hne hm
    constructor
    · rintro ⟨e, h, rfl, hmem⟩
      rcases List.mem_append.mp h with h | h
      · obtain ⟨e0, h0, rfl⟩ := List.mem_map.mp h
        exact ⟨e0, h0, (hφ e0).1.symm, ((hφ e0).2.2.1 m hm).mp hmem⟩
      · exact absurd (he e h) hne
    · rintro ⟨e, h, rfl, hmem⟩
      exact ⟨φ e, List.mem_append.mpr (.inl (List.mem_map.mpr ⟨e, h, rfl⟩)), (hφ e).1, ((hφ e).2.2.1 m hm).mpr hmem⟩

theorem others_shadow {name : Str} (l : List (Str × Str)) (h : Str) (e : Str × Str) (he : e.1 ≠ name) :
    e ∈ (name, h) :: l.filter (·.1 != name) ↔ e ∈ l := by
  simp only [List.mem_cons, List.mem_filter, bne_iff_ne, ne_eq]
  constructor
  · rintro (rfl | h)
    · exact absurd rfl he
    · exact h.1
  · exact fun h => .inr ⟨h, he⟩

theorem gid_le_max {g : GrEntry} : {l : List GrEntry} → g ∈ l → g.gid ≤ (l.map (·.gid)).foldr max 0
  | [], h => by cases h
  | a :: l, h => by
    simp only [List.map_cons, List.foldr_cons]
    rcases List.mem_cons.mp h with rfl | h
    · exact Nat.le_max_left _ _
    · exact Nat.le_trans (gid_le_max h) (Nat.le_max_right _ _)

theorem addUser_done {name : Str} {u : Parsed} {w w' : World} {out err : Bytes} {code : Int} (h : addUser name u w = (.done out err code, w')) :
    OtherAccountsSame name w w' ∧ (code = 0 → userNamed w name = none ∧ ∃ e, userNamed w' name = some e ∧ (∀ n, u.uid = some n → n = e.uid)
      ∧ e.gecos = u.comment.getD [] ∧ e.home = u.home ∧ e.shell = u.shell ∧ hashOf w' name = some (u.hash.getD p!"!")
      ∧ (∀ x ∈ u.groups, ∃ g ∈ w.groups, g.name = x) ∧ ∃ φ, Regroups name (fun g => g.name ∈ u.groups ∨ name ∈ g.members) φ
      ∧ match u.primary with
        | none => (∀ g ∈ w.groups, g.name ≠ name ∧ g.gid ≠ e.gid) ∧ w'.groups = w.groups.map φ ++ [{ name := name, gid := e.gid, members := [] }]
        | some x => w'.groups = w.groups.map φ ∧ ∃ g, groupNamed w x = some g ∧ e.gid = g.gid) := by
  unfold addUser at h
  split at h
  · cases h; exact ⟨OtherAccountsSame.refl _ _, fun h => by cases h⟩
  rename_i hno
  have hno' : ∀ e ∈ w.users, e.name ≠ name := by
    intro e he hn
    exact hno (List.any_eq_true.mpr ⟨e, he, by simp [hn]⟩)
  have hnone : userNamed w name = none := by
    unfold userNamed
    rw [List.find?_eq_none]
    intro e he
    simpa using hno' e he
  split at h
  · cases h; exact ⟨OtherAccountsSame.refl _ _, fun h => by cases h⟩
  rename_i hgs
  have hgs' : ∀ x ∈ u.groups, ∃ g ∈ w.groups, g.name = x := by
    intro x hx
    simp only [Bool.not_eq_true, Bool.not_eq_false', List.all_eq_true, List.any_eq_true] at hgs
    obtain ⟨g, h1, h2⟩ := hgs x hx
    exact ⟨g, h1, by simpa using h2⟩
  have hφ : Regroups name (fun g => g.name ∈ u.groups ∨ name ∈ g.members) fun g => setMember name (u.groups.contains g.name || g.members.contains name) g :=
    regroups_set name (fun g => u.groups.contains g.name || g.members.contains name) _ fun g => by simp
  have husers : ∀ x : PwEntry, x.name = name → ∀ e : PwEntry, e.name ≠ name → (e ∈ w.users ++ [x] ↔ e ∈ w.users) := by
    intro x hx e he
    simp only [List.mem_append, List.mem_singleton]
    exact ⟨fun h => h.elim id fun h => absurd (h ▸ hx) he, .inl⟩
  have hfind : ∀ x : PwEntry, x.name = name → (w.users ++ [x]).find? (·.name == name) = some x := by
    intro x hx
    rw [List.find?_append]
    unfold userNamed at hnone
    rw [hnone]
    simp [hx]
  dsimp only at h
  split at h
  · rename_i hp
    split at h
    · cases h; exact ⟨OtherAccountsSame.refl _ _, fun h => by cases h⟩
    · rename_i hng
      cases h
      obtain ⟨h1, h2⟩ := others_groups (w := w) (w' := { w with
        users := w.users ++ [{ name, uid := u.uid.getD (freeUid w), gid := freeGid w, gecos := u.comment.getD [], home := u.home, shell := u.shell }]
        shadow := (name, u.hash.getD p!"!") :: w.shadow.filter (·.1 != name)
        groups := w.groups.map (fun g => setMember name (u.groups.contains g.name || g.members.contains name) g) ++ [{ name, gid := freeGid w, members := [] }] })
        (extra := [{ name, gid := freeGid w, members := [] }]) hφ rfl (by simp)
      refine ⟨⟨husers _ rfl, others_shadow _ _, h1, h2⟩, fun _ => ⟨hnone, _, hfind _ rfl, ?_, rfl, rfl, rfl, ?_, hgs', _, hφ, ?_⟩⟩
      · intro n hn; rw [hn]; rfl
      · unfold hashOf; simp
      · refine ⟨fun g hg => ⟨fun hn => hng (List.any_eq_true.mpr ⟨g, hg, by simp [hn]⟩), ?_⟩, rfl⟩
        have := gid_le_max hg
        unfold freeGid
        dsimp only
        omega
  · rename_i x hp
    split at h
    · cases h; exact ⟨OtherAccountsSame.refl _ _, fun h => by cases h⟩
    · rename_i g hg
      cases h
      obtain ⟨h1, h2⟩ := others_groups (w := w) (w' := { w with
        users := w.users ++ [{ name, uid := u.uid.getD (freeUid w), gid := g.gid, gecos := u.comment.getD [], home := u.home, shell := u.shell }]
        shadow := (name, u.hash.getD p!"!") :: w.shadow.filter (·.1 != name)
        groups := w.groups.map (fun g => setMember name (u.groups.contains g.name || g.members.contains name) g) })
        (extra := []) hφ (by simp) (by simp)
      refine ⟨⟨husers _ rfl, others_shadow _ _, h1, h2⟩, fun _ => ⟨hnone, _, hfind _ rfl, ?_, rfl, rfl, rfl, ?_, hgs', _, hφ, ?_⟩⟩
      · intro n hn; rw [hn]; rfl
      · unfold hashOf; simp
      · exact ⟨rfl, g, hg, rfl⟩

theorem updUser_done {name : Str} {f : PwEntry → PwEntry} {w w' : World} {out err : Bytes} {code : Int}
    (hex : w.users.any (·.name == name) = true) (h : updUser name f w = (.done out err code, w'))
    (hf : ∀ e, (f e).name = e.name) :
    OtherAccountsSame name w w' ∧ ∃ e, userNamed w name = some e ∧ userNamed w' name = some (f e) ∧ w'.shadow = w.shadow ∧ w'.groups = w.groups := by
  cases h
  refine ⟨⟨?_, fun _ _ => Iff.rfl, fun _ _ _ => Iff.rfl, fun _ _ _ _ => Iff.rfl⟩, ?_⟩
  · intro e he
    simp only [List.mem_map]
    constructor
    · rintro ⟨a, ha, hae⟩
      split at hae
      · rename_i hn; rw [← hae, hf] at he; exact absurd hn he
      · rw [← hae]; exact ha
    · intro h; exact ⟨e, h, by rw [if_neg he]⟩
  · cases hu : userNamed w name with
    | none =>
      exfalso
      obtain ⟨e, he, hn⟩ := List.any_eq_true.mp hex
      unfold userNamed at hu
      rw [List.find?_eq_none] at hu
      exact hu e he hn
    | some e =>
      refine ⟨e, rfl, ?_, rfl, rfl⟩
      have hn : e.name = name := by simpa using List.find?_some hu
      unfold userNamed at hu ⊢
      rw [List.find?_map]
      have : ((fun x : PwEntry => x.name == name) ∘ fun e : PwEntry => if e.name = name then f e else e) = fun x => x.name == name := by
        funext x
        simp only [Function.comp]
        split
        · rw [hf]
        · rfl
      rw [this, hu]
      simp [hn]

theorem modUser_others {name o v : Str} {w w' : World} {out err : Bytes} {code : Int} (h : modUser name o v w = (.done out err code, w')) : OtherAccountsSame name w w' := by
  unfold modUser at h
  split at h
  · cases h; exact OtherAccountsSame.refl _ _
  rename_i hex
  have hex : w.users.any (·.name == name) = true := by simpa using hex
  split at h
  · split at h
    · cases h; exact OtherAccountsSame.refl _ _
    · exact (updUser_done hex h fun _ => rfl).1
  split at h
  · split at h
    · cases h; exact OtherAccountsSame.refl _ _
    · exact (updUser_done hex h fun _ => rfl).1
  split at h
  · split at h
    · cases h
      obtain ⟨h1, h2⟩ := others_groups (w := w) (w' := { w with groups := w.groups.map fun g => setMember name ((splitComma v).contains g.name) g })
        (extra := []) (regroups_set name (fun g => (splitComma v).contains g.name) _ fun g => Iff.rfl) (by simp) (by simp)
      exact ⟨fun _ _ => Iff.rfl, fun _ _ => Iff.rfl, h1, h2⟩
    · cases h; exact OtherAccountsSame.refl _ _
  split at h
  · exact (updUser_done hex h fun _ => rfl).1
  split at h
  · exact (updUser_done hex h fun _ => rfl).1
  split at h
  · exact (updUser_done hex h fun _ => rfl).1
  split at h
  · cases h
    exact ⟨fun _ _ => Iff.rfl, others_shadow _ _, fun _ _ _ => Iff.rfl, fun _ _ _ _ => Iff.rfl⟩
  · cases h; exact OtherAccountsSame.refl _ _

theorem modUser_exists {name o v : Str} {w w' : World} {out err : Bytes} (h : modUser name o v w = (.done out err 0, w')) : w.users.any (·.name == name) = true := by
  unfold modUser at h
  split at h
  · cases h
  · rename_i hex; simpa using hex

theorem userTools : UserTools userSys where
  add := by
    intro p w out err w' u hp hg h
    have h : userExec p w = _ := h
    have hl : (u.argv.drop 1).getLast? = some u.name := by
      unfold NewUser.argv
      simp only [List.append_assoc, List.cons_append, List.nil_append, List.drop_succ_cons, List.drop_zero]
      simp only [← List.cons_append, ← List.append_assoc]
      rw [List.getLast?_append]; rfl
    have hc : u.argv = p!"useradd" :: u.argv.drop 1 := by
      unfold NewUser.argv
      simp only [List.append_assoc, List.cons_append, List.nil_append, List.drop_succ_cons, List.drop_zero]
    unfold userExec at h
    rw [hp, hc] at h
    simp only [hl, if_true] at h
    cases hps : parse {} (u.argv.drop 1) with
    | none => rw [hps] at h; cases h
    | some r =>
      rw [hps] at h
      obtain ⟨k1, k2, k3, k4, k5, k6, k7⟩ := parse_argv hg hps
      obtain ⟨h1, e, h2, h3, h4, h5, h6, h7, h8, φ, h9, h10⟩ := (addUser_done h).2 rfl
      refine ⟨h1, e, φ, h2, ?_, by rw [h4, k4], by rw [h5, k5], by rw [h6, k6], by rw [h7, k7], by rw [← k3]; exact h8, by rw [← k3]; exact h9, ?_⟩
      · intro x i hx hi
        obtain ⟨n, hn, hin⟩ := k1 x i hx hi
        rw [hin, h3 n hn]
      · rw [k2] at h10
        cases hpr : u.primary with
        | none => rw [hpr] at h10; exact h10
        | some x => rw [hpr] at h10; exact ⟨h10.1, fun _ => h10.2⟩
  delete := by
    intro p w out err w' name hp h
    have h : userExec p w = _ := h
    unfold userExec at h
    rw [hp] at h
    have h : delUser name w = _ := h
    unfold delUser at h
    split at h
    · cases h
    · cases h
      unfold userNamed
      simp
  uid := by
    intro p w out err w' x uid name hp huid h
    have h : userExec p w = _ := h
    unfold userExec at h
    rw [hp] at h
    have h : modUser name p!"--uid" x w = _ := h
    have hex := modUser_exists h
    unfold modUser at h
    rw [if_neg (by rw [hex]; simp), if_pos rfl] at h
    cases hg : gidOf x with
    | none => rw [hg] at h; cases h
    | some n =>
      rw [hg] at h
      obtain ⟨_, e, h1, h2, h3, h4⟩ := updUser_done hex h fun _ => rfl
      exact ⟨e, n, h1, gidOf_eq huid hg, h2, h3, h4⟩
  gid := by
    intro p w out err w' x name hp hx h
    have h : userExec p w = _ := h
    unfold userExec at h
    rw [hp] at h
    have h : modUser name p!"--gid" x w = _ := h
    have hex := modUser_exists h
    unfold modUser at h
    rw [if_neg (by rw [hex]; simp), if_neg (by decide), if_pos rfl, groupGiven_plain hx] at h
    cases hg : groupNamed w x with
    | none => rw [hg] at h; cases h
    | some g =>
      rw [hg] at h
      obtain ⟨_, e, h1, h2, h3, h4⟩ := updUser_done hex h fun _ => rfl
      exact ⟨e, g, h1, rfl, h2, h3, h4⟩
  groups := by
    intro p w out err w' l name hl hp hpl h
    have h : userExec p w = _ := h
    unfold userExec at h
    rw [hp] at h
    have h : modUser name p!"--groups" (Py.join p!"," l) w = _ := h
    have hex := modUser_exists h
    unfold modUser at h
    rw [if_neg (by rw [hex]; simp), if_neg (by decide), if_neg (by decide), if_pos rfl, splitComma_join hl fun x hx => (hpl x hx).2.1] at h
    split at h
    · rename_i hall
      cases h
      refine ⟨?_, rfl, rfl, _, rfl, regroups_set name (fun g => l.contains g.name) _ fun g => List.contains_iff_mem⟩
      intro x hx
      obtain ⟨g, h1, h2⟩ := List.any_eq_true.mp (List.all_eq_true.mp hall x hx)
      exact ⟨g, h1, by simpa using h2⟩
    · cases h
  comment := by
    intro p w out err w' x name hp h
    have h : userExec p w = _ := h
    unfold userExec at h
    rw [hp] at h
    have h : modUser name p!"--comment" x w = _ := h
    have hex := modUser_exists h
    unfold modUser at h
    rw [if_neg (by rw [hex]; simp), if_neg (by decide), if_neg (by decide), if_neg (by decide), if_pos rfl] at h
    exact (updUser_done hex h fun _ => rfl).2
  home := by
    intro p w out err w' x name hp h
    have h : userExec p w = _ := h
    unfold userExec at h
    rw [hp] at h
    have h : modUser name p!"--home" x w = _ := h
    have hex := modUser_exists h
    unfold modUser at h
    rw [if_neg (by rw [hex]; simp), if_neg (by decide), if_neg (by decide), if_neg (by decide), if_neg (by decide), if_pos rfl] at h
    exact (updUser_done hex h fun _ => rfl).2
  shell := by
    intro p w out err w' x name hp h
    have h : userExec p w = _ := h
    unfold userExec at h
    rw [hp] at h
    have h : modUser name p!"--shell" x w = _ := h
    have hex := modUser_exists h
    unfold modUser at h
    rw [if_neg (by rw [hex]; simp), if_neg (by decide), if_neg (by decide), if_neg (by decide), if_neg (by decide), if_neg (by decide), if_pos rfl] at h
    exact (updUser_done hex h fun _ => rfl).2
  password := by
    intro p w out err w' x name hp h
    have h : userExec p w = _ := h
    unfold userExec at h
    rw [hp] at h
    have h : modUser name p!"--password" x w = _ := h
    have hex := modUser_exists h
    unfold modUser at h
    rw [if_neg (by rw [hex]; simp), if_neg (by decide), if_neg (by decide), if_neg (by decide), if_neg (by decide), if_neg (by decide), if_neg (by decide), if_pos rfl] at h
    cases h
    exact ⟨by unfold hashOf; simp, rfl, rfl⟩
  others := by
    intro p w out err code w' name _ hl h
    have h : userExec p w = _ := h
    unfold userExec at h
    split at h
    · cases h; exact OtherAccountsSame.refl _ _
    · rename_i c args hc
      split at h
      · cases h; exact OtherAccountsSame.refl _ _
      · rename_i n hn
        have : n = name := by
          rw [hc] at hl
          cases args with
          | nil => cases hn
          | cons a l => rw [List.getLast?_cons_cons] at hl; rw [hl] at hn; cases hn; rfl
        subst this
        split at h
        · split at h
          · cases h; exact OtherAccountsSame.refl _ _
          · exact (addUser_done h).1
        · split at h
          · split at h
            · exact modUser_others h
            · cases h; exact OtherAccountsSame.refl _ _
          · split at h
            · unfold delUser at h
              split at h
              · cases h; exact OtherAccountsSame.refl _ _
              · cases h
                obtain ⟨h1, h2⟩ := others_groups (name := n) (w := w) (w' := { w with
                    users := w.users.filter (·.name != n)
                    shadow := w.shadow.filter (·.1 != n)
                    groups := w.groups.map (setMember n false) })
                  (extra := []) (regroups_set n (fun _ => false) (fun _ => False) fun g => by simp) (by simp) (by simp)
                refine ⟨?_, ?_, h1, h2⟩
                · intro e he; simp [he]
                · intro e he; simp [he]
            · cases h

end Verif.Ops.Example
