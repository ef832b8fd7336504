/-
What the declarations of an inventory amount to.
-/
import Verif.Inventory.OrderLemmas

namespace Verif.Inventory

theorem rankLoop_mono {α : Type} [DecidableEq α] {vs : List α} {preds childs : α → List α} {r : Except (RankError α) (α → Int)} :
    ∀ {n m : Nat} {ranks : α → Int}, rankLoop vs preds childs n ranks = some r → n ≤ m → rankLoop vs preds childs m ranks = some r
  | 0, _, _, h, _ => by cases h
  | n + 1, 0, _, _, hm => absurd hm (by omega)
  | n + 1, m + 1, ranks, h, hm => by
    unfold rankLoop at h ⊢
    split at h
    · exact h
    · split at h
      · exact h
      · split at h
        · exact h
        · exact rankLoop_mono h (by omega)

theorem rankSort_mono {α : Type} [DecidableEq α] {vs : List α} {preds childs : α → List α} {r : Except (RankError α) (α → Int)} {n m : Nat}
    (h : rankSort n vs preds childs = some r) (hm : n ≤ m) : rankSort m vs preds childs = some r := by
  unfold rankSort at h ⊢
  cases hl : rankLoop vs preds childs n (fun _ => -1) with
  | none => rw [hl] at h; cases h
  | some x =>
    rw [hl] at h
    rw [rankLoop_mono hl hm]
    exact h

theorem topologicalOrder_mono {l : Decls GroupDecl} {r : Except Exn GroupOrder} {n m : Nat} (h : topologicalOrder n l = some r) (hm : n ≤ m) :
    topologicalOrder m l = some r := by
  unfold topologicalOrder at h ⊢
  simp only at h ⊢
  cases ht : rankSort n (l.map (·.1)) (afterOf l) (beforeOf l) with
  | none => rw [ht] at h; cases h
  | some t =>
    rw [rankSort_mono ht hm]
    rw [ht] at h
    cases hb : rankSort n (l.map (·.1)) (beforeOf l) (afterOf l) with
    | some b => rw [rankSort_mono hb hm]; rw [hb] at h; exact h
    | none =>
      rw [hb] at h
      cases t with
      | ok x => cases h
      | error e =>
        cases hb' : rankSort m (l.map (·.1)) (beforeOf l) (afterOf l) with
        | none => exact h
        | some b => cases h; cases e <;> rfl

/-- More iterations do not change the result. -/
theorem declare_mono {so : SetOrder} {es : List (Entry HostDecl)} {groups : Option (List (Entry GroupDecl))} {r : Except Exn Declared} {n m : Nat}
    (h : declare n so es groups = some r) (hm : n ≤ m) : declare m so es groups = some r := by
  unfold declare at h ⊢
  split at h
  · exact h
  · next hs gs _ =>
    cases ht : topologicalOrder n gs with
    | none => rw [ht] at h; cases h
    | some t => rw [topologicalOrder_mono ht hm]; rw [ht] at h; exact h

/-- What is known about an inventory whose declarations have been accepted. -/
structure DeclaredAs (so : SetOrder) (es : List (Entry HostDecl)) (ds : List GroupDecl) (d : Declared) : Prop where
  hosts : Each HostOf es d.hosts
  hostNames : (d.hosts.map (·.1)).Nodup
  groups : d.groups.map (·.1) = (addBuiltin (ds.map (normalized so))).map (·.1)
  order : OrderOf ds (d.groups.map (·.1)) d.order
  names : ∀ g, g ∈ d.groups.map (·.1) ↔ GroupName ds g
  nodup : (d.groups.map (·.1)).Nodup
  valid : ValidGroups ds
  used : ∀ h ∈ d.hosts, ∀ g ∈ h.2.groups, GroupName ds g
  item : ∀ g gd, (g, gd) ∈ d.groups → gd.name = g ∧ GroupFile ds g gd.file

theorem ensureDeclared_ok {so : SetOrder} {hs : Decls HostDecl} {ds : List GroupDecl} (hn : (ds.map (·.name)).Nodup) :
    ensureDeclared hs (addBuiltin (ds.map (normalized so))) = .ok () ↔
      (∀ h ∈ hs, ∀ g ∈ h.2.groups, GroupName ds g) ∧ ∀ a b, MustPrecede ds a b → GroupName ds a ∧ GroupName ds b := by
  obtain ⟨h1, h2, h3⟩ := addBuiltin_spec so hn
  unfold ensureDeclared
  constructor
  · intro h
    split at h
    · next hu =>
      refine ⟨fun x hx g hg => (h2 g).mp (hu x hx g hg), ?_⟩
      split at h
      · next hc =>
        intro a b hab
        rcases (h3 a b).mpr hab with ⟨d, hd, hb⟩ | ⟨d, hd, ha⟩
        · exact ⟨(h2 a).mp (List.mem_map.mpr ⟨_, hd, rfl⟩), (h2 b).mp ((hc _ hd).2 b hb)⟩
        · exact ⟨(h2 a).mp ((hc _ hd).1 a ha), (h2 b).mp (List.mem_map.mpr ⟨_, hd, rfl⟩)⟩
      · cases h
    · cases h
  · rintro ⟨hu, hc⟩
    rw [if_pos (fun x hx g hg => (h2 g).mpr (hu x hx g hg)), if_pos]
    rintro ⟨k, d⟩ hd
    refine ⟨fun g hg => ?_, fun g hg => ?_⟩
    · exact (h2 g).mpr (hc g k ((h3 g k).mp (.inr ⟨d, hd, hg⟩))).1
    · exact (h2 g).mpr (hc k g ((h3 k g).mp (.inl ⟨d, hd, hg⟩))).2

theorem detectSelf_ok {ds : List GroupDecl} {l : Decls GroupDecl} (h : Arrow ds l) : detectSelf l = .ok () ↔ ∀ g, ¬ MustPrecede ds g g := by
  unfold detectSelf
  constructor
  · intro hd
    split at hd
    · next hs =>
      intro g hg
      obtain ⟨⟨k, d⟩, hd, rfl⟩ := List.mem_map.mp ((h.names g).mpr (h.known g g hg).1)
      have h1 := (hs _ hd).1
      have h2 := (h.before k k).mpr hg
      rw [mem_beforeOf h.nodup] at h2
      obtain ⟨d', hd', hk⟩ := h2
      have := (lookup_of_mem h.nodup hd).symm.trans (lookup_of_mem h.nodup hd')
      cases this
      rw [h.keyed.name k d hd] at h1
      exact h1 hk
    · cases hd
  · intro hno
    rw [if_pos]
    rintro ⟨k, d⟩ hd
    show d.name ∉ d.before ∧ d.name ∉ d.after
    rw [h.keyed.name k d hd]
    refine ⟨fun hk => hno k ((h.before k k).mp ((mem_beforeOf h.nodup).mpr ⟨d, hd, hk⟩)), fun hk => hno k ((h.after k k).mp ((mem_afterOf h.nodup).mpr ⟨d, hd, hk⟩))⟩

theorem ensureDeclared_error {hs : Decls HostDecl} {gs : Decls GroupDecl} {e : Exn} (h : ensureDeclared hs gs = .error e) : ∃ m, e = .valueError m := by
  unfold ensureDeclared at h
  split at h
  · split at h
    · cases h
    · cases h; exact ⟨_, rfl⟩
  · cases h; exact ⟨_, rfl⟩

theorem detectSelf_error {gs : Decls GroupDecl} {e : Exn} (h : detectSelf gs = .error e) : ∃ m, e = .valueError m := by
  unfold detectSelf at h
  split at h
  · cases h
  · cases h; exact ⟨_, rfl⟩

theorem extractHostname_error {url : Str} {e : Exn} (h : extractHostname url = .error e) : ∃ m, e = .valueError m := by
  unfold extractHostname sshHostname localHostname at h
  split at h
  · split at h
    · cases h; exact ⟨_, rfl⟩
    · split at h
      · cases h
      · cases h; exact ⟨_, rfl⟩
    · split at h
      · cases h
      · cases h; exact ⟨_, rfl⟩
  · cases h; exact ⟨_, rfl⟩

theorem nameHost_error {d : HostDecl} {e : Exn} (h : nameHost d = .error e) : ∃ m, e = .valueError m := by
  unfold nameHost at h
  simp only at h
  split at h
  · cases h
  · cases h; exact ⟨_, rfl⟩
  · rename_i url _ _
    cases hx : extractHostname url with
    | ok n => rw [hx] at h; cases h
    | error e' => rw [hx] at h; cases h; exact extractHostname_error hx

theorem addHost_error {so : SetOrder} {l : Decls HostDecl} {x : Entry HostDecl} {e : Exn} (hx : x ≠ .dict none) (h : addHost so l x = .error e) : ∃ m, e = .valueError m := by
  unfold addHost at h
  cases hd : x.host with
  | error e' =>
    rw [hd] at h
    cases h
    cases x with
    | decl d => cases hd
    | str s => cases hd
    | dict d =>
      cases d with
      | none => exact absurd rfl hx
      | some d => cases hd
    | other => cases hd; exact ⟨_, rfl⟩
  | ok d =>
    rw [hd] at h
    simp only [bind, Except.bind] at h
    cases hn : nameHost d with
    | error e' => rw [hn] at h; cases h; exact nameHost_error hn
    | ok p =>
      rw [hn] at h
      simp only at h
      split at h
      · cases h; exact ⟨_, rfl⟩
      · cases h

theorem preprocessHosts_error {so : SetOrder} {e : Exn} : ∀ {es : List (Entry HostDecl)} {l : Decls HostDecl}, (∀ x ∈ es, x ≠ .dict none) → preprocessHosts so es l = .error e →
    ∃ m, e = .valueError m
  | [], _, _, h => by cases h
  | x :: es, l, hx, h => by
    unfold preprocessHosts at h
    simp only [bind, Except.bind] at h
    cases ha : addHost so l x with
    | error e' => rw [ha] at h; cases h; exact addHost_error (hx x (by simp)) ha
    | ok l' => rw [ha] at h; exact preprocessHosts_error (fun y hy => hx y (by simp [hy])) h

theorem addGroup_error {so : SetOrder} {l : Decls GroupDecl} {x : Entry GroupDecl} {e : Exn} (hx : x ≠ .dict none) (h : addGroup so l x = .error e) : ∃ m, e = .valueError m := by
  unfold addGroup at h
  cases hd : x.group with
  | error e' =>
    rw [hd] at h
    cases h
    cases x with
    | decl d => cases hd
    | str s => cases hd
    | dict d =>
      cases d with
      | none => exact absurd rfl hx
      | some d => cases hd
    | other => cases hd; exact ⟨_, rfl⟩
  | ok d =>
    rw [hd] at h
    simp only [bind, Except.bind] at h
    split at h
    · cases h; exact ⟨_, rfl⟩
    · cases h

theorem addGroups_error {so : SetOrder} {e : Exn} : ∀ {gs : List (Entry GroupDecl)} {l : Decls GroupDecl}, (∀ x ∈ gs, x ≠ .dict none) → addGroups so gs l = .error e →
    ∃ m, e = .valueError m
  | [], _, _, h => by cases h
  | x :: gs, l, hx, h => by
    unfold addGroups at h
    simp only [bind, Except.bind] at h
    cases ha : addGroup so l x with
    | error e' => rw [ha] at h; cases h; exact addGroup_error (hx x (by simp)) ha
    | ok l' => rw [ha] at h; exact addGroups_error (fun y hy => hx y (by simp [hy])) h

theorem declare_phase {so : SetOrder} {es : List (Entry HostDecl)} {groups : Option (List (Entry GroupDecl))} {hs : Decls HostDecl} {ds : List GroupDecl} {fuel : Nat}
    (hhs : preprocessHosts so es [] = .ok hs) (hgs : addGroups so (declaredGroups so groups hs) [] = .ok (ds.map (normalized so)))
    (hn : (ds.map (·.name)).Nodup) (hf : (addBuiltin (ds.map (normalized so))).length < fuel) :
    (ValidGroups ds ∧ (∀ h ∈ hs, ∀ g ∈ h.2.groups, GroupName ds g) → ∃ d, declare fuel so es groups = some (.ok d) ∧ d.hosts = hs ∧ DeclaredAs so es ds d)
    ∧ (¬ (ValidGroups ds ∧ (∀ h ∈ hs, ∀ g ∈ h.2.groups, GroupName ds g)) → ∃ m, declare fuel so es groups = some (.error (.valueError m))) := by
  obtain ⟨hs', heach, hE, hnd⟩ := preprocessHosts_ok (l := []) (by simp) hhs
  rw [List.nil_append] at hE
  subst hE
  have hpg : preprocessGroups so groups hs = .ok (addBuiltin (ds.map (normalized so))) := by
    unfold preprocessGroups
    rw [hgs]; rfl
  unfold declare
  simp only [hhs, hpg, bind, Except.bind]
  have hens := ensureDeclared_ok (so := so) (hs := hs) hn
  constructor
  · rintro ⟨hv, hu⟩
    rw [hens.mpr ⟨hu, hv.known⟩]
    have harr := arrow_merged so hn hv.known
    simp only
    rw [(detectSelf_ok harr).mpr (fun g hg => hv.acyclic g 0 (.step (.here _) hg))]
    have hlen : (mergeDependencies so (addBuiltin (ds.map (normalized so)))).length < fuel := by
      have := (addBuiltin_spec so hn).1
      have h5 := (mergeDependencies_spec so this (fun a b h => by
        obtain ⟨ha, hb⟩ := hv.known a b (((addBuiltin_spec so hn).2.2 a b).mp h)
        exact ⟨((addBuiltin_spec so hn).2.1 a).mpr ha, ((addBuiltin_spec so hn).2.1 b).mpr hb⟩)).2.1
      have h6 := congrArg List.length h5
      simp only [List.length_map] at h6
      omega
    obtain ⟨o, ho, hoo⟩ := (topologicalOrder_spec harr hlen).1 hv.acyclic
    simp only
    rw [ho]
    refine ⟨_, rfl, rfl, heach, hnd, ?_, hoo, harr.names, harr.nodup, hv, hu, fun g gd hgd => ⟨harr.keyed.name g gd hgd, ?_⟩⟩
    rotate_left
    · obtain ⟨d0, h7, h8⟩ := mergeDependencies_file so _ hgd
      rw [h8]
      exact addBuiltin_file hn h7
    exact (mergeDependencies_spec so (addBuiltin_spec so hn).1 (fun a b h => by
        obtain ⟨ha, hb⟩ := hv.known a b (((addBuiltin_spec so hn).2.2 a b).mp h)
        exact ⟨((addBuiltin_spec so hn).2.1 a).mpr ha, ((addBuiltin_spec so hn).2.1 b).mpr hb⟩)).2.1
  · intro hnv
    cases hens' : ensureDeclared hs (addBuiltin (ds.map (normalized so))) with
    | error e =>
      obtain ⟨m, rfl⟩ := ensureDeclared_error hens'
      exact ⟨m, rfl⟩
    | ok _ =>
      obtain ⟨hu, hkn⟩ := hens.mp hens'
      have harr := arrow_merged so hn hkn
      simp only
      cases hds : detectSelf (mergeDependencies so (addBuiltin (ds.map (normalized so)))) with
      | error e =>
        obtain ⟨m, rfl⟩ := detectSelf_error hds
        exact ⟨m, rfl⟩
      | ok _ =>
        have hlen : (mergeDependencies so (addBuiltin (ds.map (normalized so)))).length < fuel := by
          have h5 := (mergeDependencies_spec so (addBuiltin_spec so hn).1 (fun a b h => by
            obtain ⟨ha, hb⟩ := hkn a b (((addBuiltin_spec so hn).2.2 a b).mp h)
            exact ⟨((addBuiltin_spec so hn).2.1 a).mpr ha, ((addBuiltin_spec so hn).2.1 b).mpr hb⟩)).2.1
          have h6 := congrArg List.length h5
          simp only [List.length_map] at h6
          omega
        obtain ⟨m, he⟩ := (topologicalOrder_spec harr hlen).2 (fun hac => hnv ⟨⟨hn, hkn, hac⟩, hu⟩)
        simp only
        rw [he]
        exact ⟨m, rfl⟩

/-! ### Groups that are not declared -/

/-- Declarations without constraints. -/
theorem plain_precede {ds : List GroupDecl} (hp : ∀ d ∈ ds, d = { name := d.name }) {a b : Str} :
    MustPrecede ds a b ↔ (a = p!"all" ∧ b ∈ ds.map (·.name) ∧ b ≠ p!"early-explicits" ∧ b ≠ p!"all")
      ∨ (a = p!"early-explicits" ∧ b = p!"all" ∧ p!"all" ∉ ds.map (·.name)) := by
  constructor
  · rintro (⟨h1, h2, h3⟩ | ⟨h1, h2, h3⟩ | ⟨h1, h2, h3⟩ | h)
    · rw [hp _ h1] at h3; cases h3
    · rw [hp _ h1] at h3; cases h3
    · exact .inl ⟨rfl, List.mem_map.mpr ⟨_, h1, rfl⟩, h2, h3⟩
    · exact .inr ⟨rfl, rfl, h⟩
  · rintro (⟨rfl, h1, h2, h3⟩ | ⟨rfl, rfl, h⟩)
    · obtain ⟨d, hd, rfl⟩ := List.mem_map.mp h1
      exact .all hd h2 h3
    · exact .early h

theorem Precedes.mono {ds ds' : List GroupDecl} (h : ∀ a b, MustPrecede ds a b → MustPrecede ds' a b) {a b : Str} {n : Nat} (hp : Precedes ds a b n) : Precedes ds' a b n := by
  induction hp with
  | here => exact .here _
  | step _ he ih => exact .step ih (h _ _ he)

/-- Validity depends on names and constraints only. -/
theorem ValidGroups.congr {ds ds' : List GroupDecl} (hn : (ds'.map (·.name)).Nodup) (hnm : ∀ g, GroupName ds g ↔ GroupName ds' g)
    (hmp : ∀ a b, MustPrecede ds a b ↔ MustPrecede ds' a b) (h : ValidGroups ds) : ValidGroups ds' :=
  ⟨hn, fun a b hab => by
    obtain ⟨h1, h2⟩ := h.known a b ((hmp a b).mpr hab)
    exact ⟨(hnm a).mp h1, (hnm b).mp h2⟩, fun g n hp => h.acyclic g n (hp.mono fun a b hab => (hmp a b).mpr hab)⟩

theorem each_str (l : List Str) : Each (fun e d => Entry.group e = .ok d) (l.map Entry.str) (l.map fun g => ({ name := g } : GroupDecl)) := by
  induction l with
  | nil => exact .nil
  | cons x l ih => exact .cons rfl ih

theorem Names.hostOf {e : Entry HostDecl} {h : Str × HostDecl} (hh : HostOf e h) {name : Str} {groups : List Str} (hn : Names e name groups) :
    h.1 = name ∧ ∀ g, g ∈ h.2.groups ↔ g ∈ groups ∨ g = p!"all" := by
  obtain ⟨gs, h1, h2⟩ := hh.name
  obtain ⟨h3, rfl⟩ := h1.det hn
  exact ⟨h3, h2⟩

theorem used_iff {es : List (Entry HostDecl)} {hs : Decls HostDecl} (he : Each HostOf es hs) (g : Str) :
    (∃ h ∈ hs, g ∈ h.2.groups) ↔ ∃ e ∈ es, ∃ name groups, Names e name groups ∧ (g ∈ groups ∨ g = p!"all") := by
  constructor
  · rintro ⟨h, hh, hg⟩
    obtain ⟨e, he', ho⟩ := he.mem_right h hh
    obtain ⟨gs, h1, h2⟩ := ho.name
    exact ⟨e, he', h.1, gs, h1, (h2 g).mp hg⟩
  · rintro ⟨e, he', name, gs, h1, h2⟩
    obtain ⟨h, hh, ho⟩ := he.mem_left e he'
    exact ⟨h, hh, ((h1.hostOf ho).2 g).mpr h2⟩

theorem validHosts_iff {es : List (Entry HostDecl)} {hs : Decls HostDecl} {ds : List GroupDecl} (he : Each HostOf es hs) (hn : (hs.map (·.1)).Nodup) :
    ValidHosts es ds ↔ ∀ h ∈ hs, ∀ g ∈ h.2.groups, GroupName ds g := by
  constructor
  · rintro ⟨hosts, h1, _, h3⟩ h hh g hg
    obtain ⟨e, he', name, gs, h4, h5⟩ := (used_iff he g).mp ⟨h, hh, hg⟩
    rcases h5 with h5 | rfl
    · obtain ⟨⟨n2, g2⟩, h6, h7⟩ := h1.mem_left e he'
      obtain ⟨rfl, rfl⟩ := h4.det h7
      exact h3 _ h6 g h5
    · exact .all ds
  · intro hu
    have : ∀ {es : List (Entry HostDecl)} {hs : Decls HostDecl}, Each HostOf es hs → (∀ h ∈ hs, ∀ g ∈ h.2.groups, GroupName ds g) →
        ∃ hosts : List (Str × List Str), Each (fun e h => Names e h.1 h.2) es hosts ∧ hosts.map (·.1) = hs.map (·.1) ∧ ∀ h ∈ hosts, ∀ g ∈ h.2, GroupName ds g := by
      intro es hs he
      induction he with
      | nil => intro _; exact ⟨[], .nil, rfl, fun h hh => by cases hh⟩
      | @cons e h es hs h1 h2 ih =>
        intro hu
        obtain ⟨hosts, h3, h4, h5⟩ := ih (fun x hx => hu x (by simp [hx]))
        obtain ⟨gs, h6, h7⟩ := h1.name
        refine ⟨(h.1, gs) :: hosts, .cons h6 h3, by simp [h4], fun x hx g hg => ?_⟩
        rcases List.mem_cons.mp hx with rfl | hx
        · exact hu h (by simp) g ((h7 g).mpr (.inl hg))
        · exact h5 x hx g hg
    obtain ⟨hosts, h1, h2, h3⟩ := this he hu
    exact ⟨hosts, h1, by rw [h2]; exact hn, h3⟩

/-- The declarations are accepted exactly if they are consistent. -/
theorem declare_spec (so : SetOrder) (es : List (Entry HostDecl)) (groups : Option (List (Entry GroupDecl))) :
    ∃ res, Yields (fun fuel => declare fuel so es groups) res ∧
      match res with
      | .ok d => ∃ ds, DeclaresGroups es groups ds ∧ ValidHosts es ds ∧ DeclaredAs so es ds d
      | .error _ => ¬ ∃ ds, DeclaresGroups es groups ds ∧ ValidGroups ds ∧ ValidHosts es ds := by
  cases hhs : preprocessHosts so es [] with
  | error e =>
    refine ⟨.error e, ⟨0, fun m _ => by simp only [declare, hhs, bind, Except.bind]⟩, ?_⟩
    rintro ⟨ds, _, _, hosts, h1, h2, _⟩
    obtain ⟨r, hr⟩ := preprocessHosts_of (so := so) (l := []) h1 (by simpa using h2)
    rw [hhs] at hr
    cases hr
  | ok hs =>
    obtain ⟨hs', heach, hhs', hnd⟩ := preprocessHosts_ok (l := []) (by simp) hhs
    simp only [List.nil_append] at hhs'
    subst hhs'
    cases hgs : addGroups so (declaredGroups so groups hs) [] with
    | error e =>
      refine ⟨.error e, ⟨0, fun m _ => by simp only [declare, hhs, preprocessGroups, hgs, bind, Except.bind]⟩, ?_⟩
      rintro ⟨ds, hd, hv, hh⟩
      cases groups with
      | some gs =>
        have := (addGroups_eq (so := so) (l := []) (r := ds.map (normalized so)) (by simp)).mpr ⟨ds, hd, by simpa using hv.names, by simp⟩
        rw [show declaredGroups so (some gs) hs = gs from rfl] at hgs
        rw [hgs] at this
        cases this
      | none =>
        have := (addGroups_eq (so := so) (l := []) (r := ((so.order (hs.flatMap fun h => h.2.groups)).map fun g => ({ name := g } : GroupDecl)).map (normalized so)) (by simp)).mpr
          ⟨_, each_str (so.order (hs.flatMap fun h => h.2.groups)), by simpa [Function.comp_def] using so.nodup _, by simp⟩
        rw [show declaredGroups so none hs = (so.order (hs.flatMap fun h => h.2.groups)).map .str from rfl] at hgs
        rw [hgs] at this
        cases this
    | ok gs' =>
      obtain ⟨ds, hds, hn, rfl⟩ := (addGroups_eq (so := so) (l := []) (by simp)).mp hgs
      simp only [List.nil_append, List.map_nil] at hn hgs
      have hphase := fun fuel (hf : (addBuiltin (ds.map (normalized so))).length < fuel) => declare_phase hhs hgs hn hf
      -- the declarations found are those of the specification
      have hdecl : DeclaresGroups es groups ds ∧ ∀ ds', DeclaresGroups es groups ds' → ValidGroups ds' → ValidHosts es ds' → ValidGroups ds ∧ ValidHosts es ds := by
        cases groups with
        | some gs =>
          refine ⟨hds, fun ds' hd hv hh => ?_⟩
          have : ds = ds' := Each.det (fun a b b' h1 h2 => by rw [h1] at h2; cases h2; rfl) hds hd
          rw [this]
          exact ⟨hv, hh⟩
        | none =>
          have hds' : ds = (so.order (hs.flatMap fun h => h.2.groups)).map fun g => ({ name := g } : GroupDecl) :=
            Each.det (fun a b b' h1 h2 => by rw [h1] at h2; cases h2; rfl) hds (each_str _)
          have hplain : ∀ d ∈ ds, d = { name := d.name } := by
            rw [hds']
            intro d hd
            obtain ⟨g, _, rfl⟩ := List.mem_map.mp hd
            rfl
          have hnames : ∀ g, g ∈ ds.map (·.name) ↔ ∃ e ∈ es, ∃ name groups, Names e name groups ∧ (g ∈ groups ∨ g = p!"all") := by
            intro g
            rw [← used_iff heach, hds']
            simp [so.mem]
          refine ⟨⟨hn, hplain, hnames⟩, fun ds' hd hv hh => ?_⟩
          obtain ⟨hn', hplain', hnames'⟩ := hd
          have hsame : ∀ g, g ∈ ds'.map (·.name) ↔ g ∈ ds.map (·.name) := fun g => by rw [hnames, hnames']
          have hgn : ∀ g, GroupName ds' g ↔ GroupName ds g := fun g => by unfold GroupName; rw [hsame]
          refine ⟨hv.congr hn hgn (fun a b => by rw [plain_precede hplain, plain_precede hplain', hsame, hsame]), ?_⟩
          rw [validHosts_iff heach hnd] at hh ⊢
          exact fun h hh' g hg => (hgn g).mp (hh h hh' g hg)
      by_cases hv : ValidGroups ds ∧ (∀ h ∈ hs, ∀ g ∈ h.2.groups, GroupName ds g)
      · obtain ⟨d, hd, hhd, hda⟩ := (hphase _ (Nat.lt_succ_self _)).1 hv
        exact ⟨.ok d, ⟨_, fun m hm => declare_mono hd hm⟩, ds, hdecl.1, (validHosts_iff heach hnd).mpr hv.2, hda⟩
      · obtain ⟨e, he⟩ := (hphase _ (Nat.lt_succ_self _)).2 hv
        have hno : ¬ ∃ ds, DeclaresGroups es groups ds ∧ ValidGroups ds ∧ ValidHosts es ds := by
          rintro ⟨ds', h1, h2, h3⟩
          obtain ⟨h4, h5⟩ := hdecl.2 ds' h1 h2 h3
          exact hv ⟨h4, (validHosts_iff heach hnd).mp h5⟩
        exact ⟨_, ⟨_, fun m hm => declare_mono he hm⟩, hno⟩

/-- Declarations are rejected with a `ValueError`, unless a dict has wrong keys. -/
theorem declare_error {so : SetOrder} {es : List (Entry HostDecl)} {groups : Option (List (Entry GroupDecl))} {e : Exn} (hes : ∀ x ∈ es, x ≠ .dict none)
    (hgs : ∀ gs, groups = some gs → ∀ x ∈ gs, x ≠ .dict none) (h : Yields (fun fuel => declare fuel so es groups) (.error e)) : ∃ m, e = .valueError m := by
  obtain ⟨n, h⟩ := h
  cases hhs : preprocessHosts so es [] with
  | error e' =>
    have := h n (Nat.le_refl _)
    simp only [declare, hhs, bind, Except.bind] at this
    cases this
    exact preprocessHosts_error hes hhs
  | ok hs =>
    cases hgs' : addGroups so (declaredGroups so groups hs) [] with
    | error e' =>
      have := h n (Nat.le_refl _)
      simp only [declare, hhs, preprocessGroups, hgs', bind, Except.bind] at this
      cases this
      refine addGroups_error (fun x hx => ?_) hgs'
      cases groups with
      | some gs => exact hgs gs rfl x hx
      | none =>
        obtain ⟨g, _, rfl⟩ := List.mem_map.mp hx
        nofun
    | ok gs' =>
      obtain ⟨ds, _, hn, rfl⟩ := (addGroups_eq (so := so) (l := []) (by simp)).mp hgs'
      simp only [List.nil_append, List.map_nil] at hn hgs'
      have hph := declare_phase (fuel := max n ((addBuiltin (ds.map (normalized so))).length + 1)) hhs hgs' hn (by omega)
      have hm := h (max n ((addBuiltin (ds.map (normalized so))).length + 1)) (Nat.le_max_left _ _)
      by_cases hv : ValidGroups ds ∧ (∀ h ∈ hs, ∀ g ∈ h.2.groups, GroupName ds g)
      · obtain ⟨d, hd, _⟩ := hph.1 hv
        have := hm.symm.trans hd
        cases this
      · obtain ⟨m, hd⟩ := hph.2 hv
        have := hm.symm.trans hd
        cases this
        exact ⟨m, rfl⟩

end Verif.Inventory
