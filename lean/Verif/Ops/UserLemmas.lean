/-
Lemmas about `user`.
-/
import Verif.Ops.UserSpec
import Verif.Ops.GroupLemmas

namespace Verif.Ops

open Script Remote
open Client (Prog direct lostConnection Completed UserEntry)
open Wire (Packet)

section
variable {sys : Sys} {lost : Nat → Option Bool} {env : Env} {st st' : St} {w w' : World}

/-! ### Asking for a user -/

theorem getgrgid_nat (w : World) (gid : Nat) : getgrgid w (gid : Int) = match groupWithGid w gid with | some g => .ok g | none => .error .keyError := by
  have h : ((fun e : GrEntry => ((e.gid : Int) == if (gid : Int) = -1 then 4294967295 else (gid : Int))) : GrEntry → Bool) = fun e => e.gid == gid := by
    funext e
    rw [if_neg (by omega)]
    by_cases hx : e.gid = gid
    · simp [hx]
    · have : ¬ ((e.gid : Int) = (gid : Int)) := by omega
      rw [beq_eq_false_iff_ne.mpr hx, beq_eq_false_iff_ne.mpr this]
  unfold getgrgid groupWithGid
  rw [h]
  cases w.groups.find? (·.gid == gid) <;> rfl

theorem queryUser_answer {name : Str} (hname : Py.parseInt 10 name = none) :
    (∃ e, ((Client.Connector.queryUser name true).run (direct sys) w).1 = .error e ∧ e.isValueError = false)
    ∨ (∃ u, accountOf w name = some u ∧ ((Client.Connector.queryUser name true).run (direct sys) w).1 = .ok u)
    ∨ (accountOf w name = none ∧ ∃ m, ((Client.Connector.queryUser name true).run (direct sys) w).1 = .error (.valueError m)) := by
  simp only [Client.Connector.queryUser, Prog.run, direct, handle]
  unfold handleQueryUser getpwnam
  rw [hname]
  by_cases hn : hasNul name = true
  · rw [if_pos hn]; exact .inl ⟨_, rfl, rfl⟩
  · rw [if_neg hn]
    cases hu : w.users.find? (·.name == name) with
    | none =>
      refine .inr (.inr ⟨?_, _, rfl⟩)
      unfold accountOf userNamed
      rw [hu]
    | some e =>
      have he : e.name = name := by simpa using List.find?_some hu
      simp only [userEntry, if_true, Remote.optional, he]
      unfold getspnam
      rw [if_neg hn]
      by_cases h0 : w.uid ≠ 0
      · rw [if_pos h0]; exact .inl ⟨_, rfl, rfl⟩
      · rw [if_neg h0]
        have hacc : accountOf w name = match hashOf w name with
            | none => none
            | some h => match groupWithGid w e.gid with
              | some g => some { name, uid := e.uid, group := g.name, gid := e.gid, groups := memberOf w name, passwordHash := some h,
                                 gecos := e.gecos, home := e.home, shell := e.shell }
              | none => none := by
          unfold accountOf userNamed
          rw [hu]
          cases hashOf w name <;> rfl
        rw [hacc]
        unfold hashOf
        cases hs : w.shadow.find? (·.1 == name) with
        | none => exact .inr (.inr ⟨rfl, _, rfl⟩)
        | some h =>
          rw [getgrgid_nat]
          cases hg : groupWithGid w e.gid with
          | none => exact .inr (.inr ⟨rfl, _, rfl⟩)
          | some g => exact .inr (.inl ⟨_, rfl, rfl⟩)

theorem Post.queryUser {name : Str} (hname : Py.parseInt 10 name = none) {Q : Option UserEntry → St → World → Prop} {E : World → Prop}
    (h : Q (accountOf w name) st w) (hE : E w) : Post sys lost (Connection.queryUser name true) env st w Q E := by
  rcases queryUser_answer (sys := sys) (w := w) hname with ⟨e, hq, hv⟩ | ⟨e, he, hq⟩ | ⟨he, m, hq⟩
  · refine Post.orDefault (single_queryUser _ _) (direct_query _ rfl) ?_ ?_ hE
    · intro a ha; rw [hq] at ha; cases ha
    · intro a ha hv'; rw [hq] at ha; cases ha; rw [hv] at hv'; cases hv'
  · refine Post.orDefault (single_queryUser _ _) (direct_query _ rfl) ?_ ?_ hE
    · intro a ha; rw [hq] at ha; cases ha; rw [he] at h; exact h
    · intro a ha hv; rw [hq] at ha; cases ha
  · refine Post.orDefault (single_queryUser _ _) (direct_query _ rfl) ?_ ?_ hE
    · intro a ha; rw [hq] at ha; cases ha
    · intro a ha hv; rw [he] at h; exact h

/-! ### Databases -/

theorem OtherAccountsSame.refl (name : Str) (w : World) : OtherAccountsSame name w w :=
  ⟨fun _ _ => Iff.rfl, fun _ _ => Iff.rfl, fun _ _ _ => Iff.rfl, fun _ _ _ _ => Iff.rfl⟩

theorem OtherAccountsSame.trans {name : Str} {w w1 w2 : World} (h1 : OtherAccountsSame name w w1) (h2 : OtherAccountsSame name w1 w2) : OtherAccountsSame name w w2 :=
  ⟨fun e h => (h2.users e h).trans (h1.users e h), fun e h => (h2.hashes e h).trans (h1.hashes e h),
   fun g i h => (h2.groups g i h).trans (h1.groups g i h), fun g m h h' => (h2.members g m h h').trans (h1.members g m h h')⟩

theorem accountOf_iff {name : Str} {u : UserEntry} : accountOf w name = some u ↔
    ∃ e h g, userNamed w name = some e ∧ hashOf w name = some h ∧ groupWithGid w e.gid = some g
      ∧ u = { name, uid := e.uid, group := g.name, gid := e.gid, groups := memberOf w name, passwordHash := some h,
              gecos := e.gecos, home := e.home, shell := e.shell } := by
  unfold accountOf
  cases hu : userNamed w name with
  | none => simp
  | some e =>
    cases hh : hashOf w name with
    | none => simp
    | some h =>
      cases hg : groupWithGid w e.gid with
      | none => simp [hg]
      | some g =>
        simp only [hg, Option.some.injEq]
        constructor
        · rintro rfl; exact ⟨e, h, g, rfl, rfl, hg, rfl⟩
        · rintro ⟨e', h', g', rfl, rfl, hg', rfl⟩
          rw [hg] at hg'; cases hg'; rfl

theorem find_entry {α β : Type} [BEq β] [LawfulBEq β] {f : α → β} {l : List α} (hn : (l.map f).Nodup) {x : α} (hx : x ∈ l) {b : β} (hb : f x = b) :
    l.find? (fun y => f y == b) = some x := by
  induction l with
  | nil => cases hx
  | cons y ys ih =>
    rw [List.map_cons, List.nodup_cons] at hn
    rw [List.find?_cons]
    rcases List.mem_cons.mp hx with rfl | hx
    · simp [hb]
    · have : f y ≠ b := by
        intro h
        exact hn.1 (List.mem_map.mpr ⟨x, hx, hb.trans h.symm⟩)
      rw [beq_eq_false_iff_ne.mpr this]
      exact ih hn.2 hx

theorem UniqueGroups.named (h : UniqueGroups w) {x : Str} {g : GrEntry} (hg : groupNamed w x = some g) : groupWithGid w g.gid = some g ∧ g.name = x := by
  have hm : g ∈ w.groups := List.mem_of_find?_eq_some hg
  exact ⟨find_entry (f := fun e : GrEntry => e.gid) h.gids hm rfl, by simpa using List.find?_some hg⟩

theorem UniqueGroups.congr (h : UniqueGroups w) (hg : w'.groups = w.groups) : UniqueGroups w' :=
  ⟨by rw [hg]; exact h.names, by rw [hg]; exact h.gids, by rw [hg]; exact h.plain⟩

theorem map_regroups {name : Str} {P : GrEntry → Prop} {φ : GrEntry → GrEntry} (hφ : Regroups name P φ) {β : Type} (f : GrEntry → β)
    (hf : ∀ g, f (φ g) = f g) (l : List GrEntry) : (l.map φ).map f = l.map f := by
  rw [List.map_map]
  exact List.map_congr_left fun g _ => hf g

theorem UniqueGroups.regroups (h : UniqueGroups w) {name : Str} {P : GrEntry → Prop} {φ : GrEntry → GrEntry} (hφ : Regroups name P φ)
    (hg : w'.groups = w.groups.map φ) : UniqueGroups w' := by
  refine ⟨?_, ?_, ?_⟩
  · rw [hg, map_regroups hφ _ fun g => (hφ g).1]; exact h.names
  · rw [hg, map_regroups hφ _ fun g => (hφ g).2.1]; exact h.gids
  · rw [hg]
    intro g hg
    obtain ⟨g0, h0, rfl⟩ := List.mem_map.mp hg
    rw [(hφ g0).1]; exact h.plain g0 h0

theorem mem_memberOf {name x : Str} : x ∈ memberOf w name ↔ ∃ g ∈ w.groups, name ∈ g.members ∧ g.name = x := by
  unfold memberOf
  simp only [List.mem_map, List.mem_filter, List.contains_iff_mem]
  exact ⟨fun ⟨g, ⟨h1, h2⟩, h3⟩ => ⟨g, h1, h2, h3⟩, fun ⟨g, h1, h2, h3⟩ => ⟨g, ⟨h1, h2⟩, h3⟩⟩

theorem memberOf_nodup (h : UniqueGroups w) (name : Str) : (memberOf w name).Nodup := by
  unfold memberOf
  exact List.Nodup.sublist (List.Sublist.map _ List.filter_sublist) h.names

theorem groupWithGid_regroups {name : Str} {P : GrEntry → Prop} {φ : GrEntry → GrEntry} (hφ : Regroups name P φ) {l : List GrEntry} (gid : Nat) :
    (l.map φ).find? (·.gid == gid) = (l.find? (·.gid == gid)).map φ := by
  rw [List.find?_map]
  congr 1
  congr 1
  funext g
  simp [(hφ g).2.1]

theorem memberOf_congr {name : Str} (h : w'.groups = w.groups) : memberOf w' name = memberOf w name := by
  unfold memberOf; rw [h]

theorem groupWithGid_congr {gid : Nat} (h : w'.groups = w.groups) : groupWithGid w' gid = groupWithGid w gid := by
  unfold groupWithGid; rw [h]

theorem groupNamed_congr {x : Str} (h : w'.groups = w.groups) : groupNamed w' x = groupNamed w x := by
  unfold groupNamed; rw [h]

theorem hashOf_congr {name : Str} (h : w'.shadow = w.shadow) : hashOf w' name = hashOf w name := by
  unfold hashOf; rw [h]

theorem userNamed_congr {name : Str} (h : w'.users = w.users) : userNamed w' name = userNamed w name := by
  unfold userNamed; rw [h]

/-! ### The steps of changing a user -/

/-- What is known between the steps. The groups are given up to their order. -/
structure Stands (name : Str) (w0 w : World) (u : UserEntry) : Prop where
  others : OtherAccountsSame name w0 w
  unique : UniqueGroups w
  account : ∃ gid gs, accountOf w name = some { u with gid, groups := gs } ∧ ∀ x, x ∈ gs ↔ x ∈ u.groups

variable {name : Str} {w0 : World} {u : UserEntry}

theorem Stands.named (h : Stands name w0 w u) : ∃ e hh g, userNamed w name = some e ∧ hashOf w name = some hh ∧ groupWithGid w e.gid = some g
    ∧ (∀ x, x ∈ memberOf w name ↔ x ∈ u.groups) ∧ name = u.name ∧ (e.uid : Int) = u.uid ∧ g.name = u.group ∧ some hh = u.passwordHash
    ∧ e.gecos = u.gecos ∧ e.home = u.home ∧ e.shell = u.shell := by
  obtain ⟨gid, gs, ha, hgs⟩ := h.account
  obtain ⟨e, hh, g, h1, h2, h3, h4⟩ := accountOf_iff.mp ha
  simp only [UserEntry.mk.injEq] at h4
  obtain ⟨n1, n2, n3, n4, n5, n6, n7, n8, n9⟩ := h4
  exact ⟨e, hh, g, h1, h2, h3, (by rw [← n5]; exact hgs), n1.symm, n2.symm, n3.symm, n6.symm, n7.symm, n8.symm, n9.symm⟩

/-- The same from its parts. -/
theorem Stands.of {e : PwEntry} {hh : Str} {g : GrEntry} (ho : OtherAccountsSame name w0 w) (hu : UniqueGroups w) (h1 : userNamed w name = some e)
    (h2 : hashOf w name = some hh) (h3 : groupWithGid w e.gid = some g) (h4 : ∀ x, x ∈ memberOf w name ↔ x ∈ u.groups) (h5 : name = u.name)
    (h6 : (e.uid : Int) = u.uid) (h7 : g.name = u.group) (h8 : some hh = u.passwordHash) (h9 : e.gecos = u.gecos) (h10 : e.home = u.home)
    (h11 : e.shell = u.shell) : Stands name w0 w u := by
  refine ⟨ho, hu, (e.gid : Int), memberOf w name, accountOf_iff.mpr ⟨e, hh, g, h1, h2, h3, ?_⟩, h4⟩
  rw [UserEntry.mk.injEq]
  exact ⟨h5.symm, h6.symm, h7.symm, rfl, rfl, h8.symm, h9.symm, h10.symm, h11.symm⟩

/-- The world as the tool sees it. -/
theorem others_started (ht : UserTools sys) {p : Proc} {out err : Bytes} {code : Int} (ho : OtherAccountsSame name w0 w)
    (hh : p.argv.head? = some p!"useradd" ∨ p.argv.head? = some p!"usermod" ∨ p.argv.head? = some p!"userdel") (hl : p.argv.getLast? = some name)
    (hx : sys.exec p { w with started := p :: w.started } = (.done out err code, w')) : OtherAccountsSame name w0 w' := by
  have h := ht.others p _ out err code w' name hh hl hx
  exact ho.trans ⟨h.users, h.hashes, h.groups, h.members⟩

theorem Stands.uid (ht : UserTools sys) (h : Stands name w0 w u) {i : Int} {p : Proc} {out err : Bytes}
    (hp : p.argv = [p!"usermod", p!"--uid", Py.intStr i, p!"--", name]) (hx : sys.exec p { w with started := p :: w.started } = (.done out err 0, w')) :
    Stands name w0 w' { u with uid := i } := by
  have ho := others_started ht h.others (by rw [hp]; exact .inr (.inl rfl)) (by rw [hp]; rfl) hx
  obtain ⟨e, n, k1, k2, k3, k4, k5⟩ := ht.uid p _ out err w' _ i name hp (Py.parseInt_intStr i) hx
  obtain ⟨e', hh, g, h1, h2, h3, h4, h5, h6, h7, h8, h9, h10, h11⟩ := h.named
  have k1' : userNamed w name = some e := k1
  rw [h1] at k1'; cases k1'
  exact Stands.of ho (h.unique.congr k5) k3 (by rw [hashOf_congr k4]; exact h2) (by rw [groupWithGid_congr k5]; exact h3)
    (by rw [memberOf_congr k5]; exact h4) h5 k2.symm h7 h8 h9 h10 h11

theorem Stands.comment (ht : UserTools sys) (h : Stands name w0 w u) {x : Str} {p : Proc} {out err : Bytes}
    (hp : p.argv = [p!"usermod", p!"--comment", x, p!"--", name]) (hx : sys.exec p { w with started := p :: w.started } = (.done out err 0, w')) :
    Stands name w0 w' { u with gecos := x } := by
  have ho := others_started ht h.others (by rw [hp]; exact .inr (.inl rfl)) (by rw [hp]; rfl) hx
  obtain ⟨e, k1, k3, k4, k5⟩ := ht.comment p _ out err w' x name hp hx
  obtain ⟨e', hh, g, h1, h2, h3, h4, h5, h6, h7, h8, h9, h10, h11⟩ := h.named
  have k1' : userNamed w name = some e := k1
  rw [h1] at k1'; cases k1'
  exact Stands.of ho (h.unique.congr k5) k3 (by rw [hashOf_congr k4]; exact h2) (by rw [groupWithGid_congr k5]; exact h3)
    (by rw [memberOf_congr k5]; exact h4) h5 h6 h7 h8 rfl h10 h11

theorem Stands.home (ht : UserTools sys) (h : Stands name w0 w u) {x : Str} {p : Proc} {out err : Bytes}
    (hp : p.argv = [p!"usermod", p!"--home", x, p!"--", name]) (hx : sys.exec p { w with started := p :: w.started } = (.done out err 0, w')) :
    Stands name w0 w' { u with home := x } := by
  have ho := others_started ht h.others (by rw [hp]; exact .inr (.inl rfl)) (by rw [hp]; rfl) hx
  obtain ⟨e, k1, k3, k4, k5⟩ := ht.home p _ out err w' x name hp hx
  obtain ⟨e', hh, g, h1, h2, h3, h4, h5, h6, h7, h8, h9, h10, h11⟩ := h.named
  have k1' : userNamed w name = some e := k1
  rw [h1] at k1'; cases k1'
  exact Stands.of ho (h.unique.congr k5) k3 (by rw [hashOf_congr k4]; exact h2) (by rw [groupWithGid_congr k5]; exact h3)
    (by rw [memberOf_congr k5]; exact h4) h5 h6 h7 h8 h9 rfl h11

theorem Stands.shell (ht : UserTools sys) (h : Stands name w0 w u) {x : Str} {p : Proc} {out err : Bytes}
    (hp : p.argv = [p!"usermod", p!"--shell", x, p!"--", name]) (hx : sys.exec p { w with started := p :: w.started } = (.done out err 0, w')) :
    Stands name w0 w' { u with shell := x } := by
  have ho := others_started ht h.others (by rw [hp]; exact .inr (.inl rfl)) (by rw [hp]; rfl) hx
  obtain ⟨e, k1, k3, k4, k5⟩ := ht.shell p _ out err w' x name hp hx
  obtain ⟨e', hh, g, h1, h2, h3, h4, h5, h6, h7, h8, h9, h10, h11⟩ := h.named
  have k1' : userNamed w name = some e := k1
  rw [h1] at k1'; cases k1'
  exact Stands.of ho (h.unique.congr k5) k3 (by rw [hashOf_congr k4]; exact h2) (by rw [groupWithGid_congr k5]; exact h3)
    (by rw [memberOf_congr k5]; exact h4) h5 h6 h7 h8 h9 h10 rfl

theorem Stands.password (ht : UserTools sys) (h : Stands name w0 w u) {x : Str} {p : Proc} {out err : Bytes}
    (hp : p.argv = [p!"usermod", p!"--password", x, p!"--", name]) (hx : sys.exec p { w with started := p :: w.started } = (.done out err 0, w')) :
    Stands name w0 w' { u with passwordHash := some x } := by
  have ho := others_started ht h.others (by rw [hp]; exact .inr (.inl rfl)) (by rw [hp]; rfl) hx
  obtain ⟨k1, k4, k5⟩ := ht.password p _ out err w' x name hp hx
  obtain ⟨e', hh, g, h1, h2, h3, h4, h5, h6, h7, h8, h9, h10, h11⟩ := h.named
  exact Stands.of ho (h.unique.congr k5) (by rw [userNamed_congr k4]; exact h1) k1 (by rw [groupWithGid_congr k5]; exact h3)
    (by rw [memberOf_congr k5]; exact h4) h5 h6 h7 rfl h9 h10 h11

theorem Stands.gid (ht : UserTools sys) (h : Stands name w0 w u) {x : Str} (hpx : Py.parseInt 10 x = none) {p : Proc} {out err : Bytes}
    (hp : p.argv = [p!"usermod", p!"--gid", x, p!"--", name]) (hx : sys.exec p { w with started := p :: w.started } = (.done out err 0, w')) :
    Stands name w0 w' { u with group := x } := by
  have ho := others_started ht h.others (by rw [hp]; exact .inr (.inl rfl)) (by rw [hp]; rfl) hx
  obtain ⟨e, gr, k1, k2, k3, k4, k5⟩ := ht.gid p _ out err w' x name hp hpx hx
  obtain ⟨e', hh, g, h1, h2, h3, h4, h5, h6, h7, h8, h9, h10, h11⟩ := h.named
  have k1' : userNamed w name = some e := k1
  rw [h1] at k1'; cases k1'
  have k2' : groupNamed w x = some gr := k2
  exact Stands.of ho (h.unique.congr k5) k3 (by rw [hashOf_congr k4]; exact h2) (by rw [groupWithGid_congr k5]; exact (h.unique.named k2').1)
    (by rw [memberOf_congr k5]; exact h4) h5 h6 (h.unique.named k2').2 h8 h9 h10 h11

theorem Stands.groups (ht : UserTools sys) (h : Stands name w0 w u) {l : List Str} (hl : l ≠ []) (hpl : ∀ x ∈ l, PlainName x) {p : Proc} {out err : Bytes}
    (hp : p.argv = [p!"usermod", p!"--groups", Py.join p!"," l, p!"--", name]) (hx : sys.exec p { w with started := p :: w.started } = (.done out err 0, w')) :
    Stands name w0 w' { u with groups := l } := by
  have ho := others_started ht h.others (by rw [hp]; exact .inr (.inl rfl)) (by rw [hp]; rfl) hx
  obtain ⟨k1, k2, k3, φ, k4, k5⟩ := ht.groups p _ out err w' l name hl hp hpl hx
  obtain ⟨e', hh, g, h1, h2, h3, h4, h5, h6, h7, h8, h9, h10, h11⟩ := h.named
  refine Stands.of ho (h.unique.regroups k5 k4) (by rw [userNamed_congr k2]; exact h1) (by rw [hashOf_congr k3]; exact h2)
    (g := φ g) ?_ ?_ h5 h6 (by rw [(k5 g).1]; exact h7) h8 h9 h10 h11
  · unfold groupWithGid at h3 ⊢
    rw [k4, groupWithGid_regroups k5]
    have h3' : List.find? (fun x => x.gid == e'.gid) w.groups = some g := h3
    show Option.map φ (List.find? (fun x => x.gid == e'.gid) w.groups) = _
    rw [h3']; rfl
  · intro x
    rw [mem_memberOf, k4]
    constructor
    · rintro ⟨g1, hg1, hm, rfl⟩
      obtain ⟨g2, hg2, rfl⟩ := List.mem_map.mp hg1
      rw [(k5 g2).1]
      exact (k5 g2).2.2.2.mp hm
    · intro hxl
      obtain ⟨g2, hg2, hn⟩ := k1 x hxl
      exact ⟨φ g2, List.mem_map.mpr ⟨g2, hg2, rfl⟩, (k5 g2).2.2.2.mpr (show g2.name ∈ l by rw [hn]; exact hxl), by rw [(k5 g2).1]; exact hn⟩


/-! ### Creating a user -/

/-- useradd as `user` calls it. -/
def newUser (a : UserArgs) (t : UserTarget) : NewUser :=
  { name := a.user, system := a.system, uid := t.uid.map Py.intStr, primary := t.group, groups := t.groups, comment := t.comment, home := t.home, shell := t.shell,
    hash := match t.passwordHash with | some [] => none | h => h }

theorem useradd_argv (a : UserArgs) (t : UserTarget) : useraddCommand a t = (newUser a t).argv := by
  obtain ⟨uid, group, groups, hash, comment, home, shell⟩ := t
  unfold useraddCommand NewUser.argv newUser
  simp only [optArg]
  have hg : (if groups.length > 0 then [p!"--groups", Py.join p!"," groups] else []) = if groups = [] then [] else [p!"--groups", Py.join p!"," groups] := by
    cases groups <;> simp
  rw [hg]
  cases uid <;> cases group <;> cases comment <;> (cases hash with
    | none => simp
    | some h => cases h <;> simp)

/-- What `user` makes of an account. -/
structure Reached (a : UserArgs) (t : UserTarget) (u : UserEntry) : Prop where
  uid : ∀ i, t.uid = some i → u.uid = i
  group : ∀ g, t.group = some g → u.group = g
  ownGroup : t.group = none → u.group = a.user
  groups : ∀ x, x ∈ u.groups ↔ x ∈ t.groups
  gecos : u.gecos = t.comment.getD []
  home : u.home = t.home
  shell : u.shell = t.shell
  hash : u.passwordHash = some (t.passwordHash.getD p!"!")

theorem Stands.add (ht : UserTools sys) {a : UserArgs} {t : UserTarget} (ho : OtherAccountsSame a.user w0 w) (hu : UniqueGroups w) (hname : PlainName a.user)
    (hgr : ∀ g, t.group = some g → Py.parseInt 10 g = none) (hgs : ∀ g ∈ t.groups, PlainName g) (hhash : t.passwordHash ≠ some [])
    (hstale : userNamed w a.user = none → memberOf w a.user = []) {p : Proc} {out err : Bytes}
    (hp : p.argv = useraddCommand a t) (hx : sys.exec p { w with started := p :: w.started } = (.done out err 0, w')) :
    ∃ u, Stands a.user w0 w' u ∧ Reached a t u := by
  rw [useradd_argv] at hp
  have hl : p.argv.getLast? = some a.user := by
    rw [hp]; unfold NewUser.argv; rw [List.getLast?_append]; rfl
  have hh : p.argv.head? = some p!"useradd" := by
    rw [hp]; unfold NewUser.argv; simp only [List.append_assoc]; rfl
  have ho' := others_started ht ho (.inl hh) hl hx
  obtain ⟨k1, e, φ, k2, k3, k4, k5, k6, k7, k8, k9, k10⟩ := ht.add p _ out err w' (newUser a t) hp hgs hx
  have hst := hstale k1
  have hmem : ∀ x, (∃ g ∈ w.groups.map φ, a.user ∈ g.members ∧ g.name = x) ↔ x ∈ t.groups := by
    intro x
    constructor
    · rintro ⟨g1, hg1, hm, rfl⟩
      obtain ⟨g2, hg2, rfl⟩ := List.mem_map.mp hg1
      rw [(k9 g2).1]
      rcases (k9 g2).2.2.2.mp hm with h | h
      · exact h
      · have : g2.name ∈ memberOf w a.user := mem_memberOf.mpr ⟨g2, hg2, h, rfl⟩
        rw [hst] at this; cases this
    · intro hxl
      obtain ⟨g2, hg2, hn⟩ := k8 x hxl
      exact ⟨φ g2, List.mem_map.mpr ⟨g2, hg2, rfl⟩, (k9 g2).2.2.2.mpr (.inl (show g2.name ∈ t.groups by rw [hn]; exact hxl)), by rw [(k9 g2).1]; exact hn⟩
  have hhash' : (newUser a t).hash = t.passwordHash := by
    unfold newUser
    cases h : t.passwordHash with
    | none => rfl
    | some h' =>
      cases h' with
      | nil => exact absurd h hhash
      | cons => rfl
  rw [hhash'] at k7
  cases hg : t.group with
  | none =>
    have k10' : (∀ g ∈ w.groups, g.name ≠ a.user ∧ g.gid ≠ e.gid) ∧ w'.groups = w.groups.map φ ++ [{ name := a.user, gid := e.gid, members := [] }] := by
      have : (newUser a t).primary = none := hg
      rw [this] at k10; exact k10
    obtain ⟨k11, k12⟩ := k10'
    have huniq : UniqueGroups w' := by
      refine ⟨?_, ?_, ?_⟩
      · rw [k12, List.map_append, map_regroups k9 _ fun g => (k9 g).1]
        rw [List.nodup_append]
        refine ⟨hu.names, by simp, ?_⟩
        intro x hx y hy hxy
        obtain ⟨g, hg, rfl⟩ := List.mem_map.mp hx
        simp at hy
        exact (k11 g hg).1 (hxy.trans hy)
      · rw [k12, List.map_append, map_regroups k9 _ fun g => (k9 g).2.1]
        rw [List.nodup_append]
        refine ⟨hu.gids, by simp, ?_⟩
        intro x hx y hy hxy
        obtain ⟨g, hg, rfl⟩ := List.mem_map.mp hx
        simp at hy
        exact (k11 g hg).2 (hxy.trans hy)
      · intro g hg
        rw [k12] at hg
        rcases List.mem_append.mp hg with hg | hg
        · obtain ⟨g0, h0, rfl⟩ := List.mem_map.mp hg
          rw [(k9 g0).1]; exact hu.plain g0 h0
        · simp at hg; rw [hg]; exact hname
    have hgid : groupWithGid w' e.gid = some { name := a.user, gid := e.gid, members := [] } :=
      find_entry (f := fun g : GrEntry => g.gid) huniq.gids (by rw [k12]; simp) rfl
    have hmem' : ∀ x, x ∈ memberOf w' a.user ↔ x ∈ t.groups := by
      intro x
      rw [mem_memberOf, k12, ← hmem x]
      constructor
      · rintro ⟨g, hg, hm, hn⟩
        rcases List.mem_append.mp hg with hg | hg
        · exact ⟨g, hg, hm, hn⟩
        · simp at hg; rw [hg] at hm; cases hm
      · rintro ⟨g, hg, h⟩; exact ⟨g, List.mem_append.mpr (.inl hg), h⟩
    refine ⟨{ name := a.user, uid := e.uid, group := a.user, gid := e.gid, groups := memberOf w' a.user, passwordHash := some (t.passwordHash.getD p!"!"),
              gecos := e.gecos, home := e.home, shell := e.shell },
      Stands.of ho' huniq k2 k7 hgid (fun _ => Iff.rfl) rfl rfl rfl rfl rfl rfl rfl, ?_⟩
    exact ⟨fun i h => (k3 _ i (by simp [newUser, h]) (Py.parseInt_intStr i)).symm, fun g h => (by rw [hg] at h; cases h), fun _ => rfl, hmem', k4, k5, k6, rfl⟩
  | some x =>
    have k10' : w'.groups = w.groups.map φ ∧ (Py.parseInt 10 x = none → ∃ g, groupNamed w x = some g ∧ e.gid = g.gid) := by
      have : (newUser a t).primary = some x := hg
      rw [this] at k10; exact k10
    obtain ⟨k12, k13⟩ := k10'
    obtain ⟨g, hg1, hg2⟩ := k13 (hgr x hg)
    have huniq := hu.regroups k9 k12
    have hgid : groupWithGid w' e.gid = some (φ g) := by
      have := (hu.named hg1).1
      unfold groupWithGid at this ⊢
      rw [k12, groupWithGid_regroups k9, hg2, this]; rfl
    have hmem' : ∀ y, y ∈ memberOf w' a.user ↔ y ∈ t.groups := by
      intro y
      rw [mem_memberOf, k12, hmem y]
    refine ⟨{ name := a.user, uid := e.uid, group := x, gid := e.gid, groups := memberOf w' a.user, passwordHash := some (t.passwordHash.getD p!"!"),
              gecos := e.gecos, home := e.home, shell := e.shell },
      Stands.of ho' huniq k2 k7 hgid (fun _ => Iff.rfl) rfl rfl (by rw [(k9 g).1]; exact (hu.named hg1).2) rfl rfl rfl rfl, ?_⟩
    exact ⟨fun i h => (k3 _ i (by simp [newUser, h]) (Py.parseInt_intStr i)).symm, fun y h => (by rw [hg] at h; cases h; rfl), fun h => (by rw [hg] at h; cases h), hmem', k4, k5, k6, rfl⟩

end
end Verif.Ops
