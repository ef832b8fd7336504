/-
Lemmas about `user`: the operation as a whole.
-/
import Verif.Ops.UserLemmas
import Verif.Ops.SortLemmas

namespace Verif.Ops

open Script Remote
open Client (Prog direct lostConnection Completed UserEntry)
open Wire (Packet)

section
variable {sys : Sys} {lost : Nat → Option Bool} {env : Env} {st st' : St} {w w' w0 : World} {a : UserArgs} {u cur : UserEntry}

theorem usermodIf_post {i f : Dict} (hs : States st i f) {key option user : Str} {value : Option Str} {x y : Val} (ha : i.get key = some x)
    (hb : f.get key = some y) {R E : World → Prop} (hE : E w) (hskip : x.eq y = true ∨ value = none → R w)
    (hrun : ∀ v p out err code w', value = some v → x.eq y = false → p.argv = [p!"usermod", option, v, p!"--", user] →
      sys.exec p { w with started := p :: w.started } = (.done out err code, w') → E w' ∧ (code = 0 → R w')) :
    Post sys lost (usermodIf key option value user) env st w (fun _ st' w' => st' = st ∧ R w') E := by
  unfold usermodIf
  refine Post.whenChanged hs ha hb (fun hne => ?_) fun heq => ⟨rfl, hskip (.inl heq)⟩
  cases hv : value with
  | none => exact Post.pure ⟨rfl, hskip (.inr hv)⟩
  | some v =>
    refine Post.runAny (fun p out err code w' hp hx => ?_) hE
    obtain ⟨h1, h2⟩ := hrun v p out err code w' hv hne hp hx
    exact ⟨h1, fun hc => ⟨rfl, h2 hc⟩⟩

theorem orStr_some {r : Option Str} {b : Str} : ∃ v, orStr r (some b) = some v := by
  match r with
  | none => exact ⟨b, rfl⟩
  | some [] => exact ⟨b, rfl⟩
  | some (c :: s) => exact ⟨_, rfl⟩

theorem orInt_ex {r : Option Int} {b : Int} : ∃ v, orInt r (some b) = some v := by
  cases r with
  | none => exact ⟨b, rfl⟩
  | some i => unfold orInt; simp only; split <;> exact ⟨_, rfl⟩

theorem orStr_or {r b : Option Str} : orStr r b = r ∨ orStr r b = b := by
  match r with
  | none => exact .inr rfl
  | some [] => exact .inr rfl
  | some (c :: s) => exact .inl rfl

theorem printable_user (a : UserArgs) (cur : Option Client.UserEntry) (t : UserTarget) : printable (currentUser cur) (wantedUser a t) = true := by
  unfold wantedUser
  cases cur <;> split <;> rfl

/-- Changing an existing user. -/
theorem userActions_modify (ht : UserTools sys) (hpl : PlainUserArgs a) (hpres : a.present = true) {i f : Dict}
    (hacc : accountOf w a.user = some cur) (hu : UniqueGroups w)
    (hi : i = currentUser (some cur)) (hf : f = wantedUser a (userTarget a (some cur))) (hs : States st i f) :
    Post sys lost (userActions a (userTarget a (some cur))) env st w
      (fun _ st' w' => st' = st ∧ ∃ u, Stands a.user w w' u ∧ Reached a (userTarget a (some cur)) u) (OtherAccountsSame a.user w) := by
  subst hi
  have hf' : f = userState true (userTarget a (some cur)).uid (userTarget a (some cur)).group (userTarget a (some cur)).groups (userTarget a (some cur)).comment
      (some (userTarget a (some cur)).home) (some (userTarget a (some cur)).shell) (userTarget a (some cur)).passwordHash := by
    rw [hf]; unfold wantedUser; rw [hpres]; rfl
  subst hf'
  clear hf
  obtain ⟨e, hh, g, hn1, hn2, hn3, hcur⟩ := accountOf_iff.mp hacc
  have hgm : g ∈ w.groups := List.mem_of_find?_eq_some hn3
  -- every target value is there
  obtain ⟨tu, htu⟩ : ∃ v, (userTarget a (some cur)).uid = some v := orInt_ex
  obtain ⟨tg, htg⟩ : ∃ v, (userTarget a (some cur)).group = some v := orStr_some
  obtain ⟨tc, htc⟩ : ∃ v, (userTarget a (some cur)).comment = some v := orStr_some
  obtain ⟨th, hth⟩ : ∃ v, (userTarget a (some cur)).passwordHash = some v := by
    have : (some cur).bind (·.passwordHash) = some hh := by rw [hcur]; rfl
    unfold userTarget
    simp only
    rw [this]
    exact orStr_some
  have hgplain : Py.parseInt 10 tg = none := by
    have h : orStr a.group (some cur.group) = some tg := htg
    rcases orStr_or (r := a.group) (b := some cur.group) with h' | h'
    · rw [h] at h'; exact hpl.group tg h'.symm
    · rw [h] at h'; cases h'; rw [hcur]; exact (hu.plain g hgm).2.2
  have hmemplain : ∀ x ∈ cur.groups, PlainName x := by
    intro x hx
    rw [hcur] at hx
    obtain ⟨g', hg', _, rfl⟩ := mem_memberOf.mp hx
    exact hu.plain g' hg'
  have hgsplain : ∀ x ∈ (userTarget a (some cur)).groups, PlainName x := by
    intro x hx
    have hx : x ∈ sorted (if a.appendGroups then distinct ((orList a.groups []) ++ cur.groups) else orList a.groups cur.groups) := hx
    rw [mem_sorted] at hx
    have hor : ∀ b, (∀ x ∈ b, PlainName x) → ∀ x ∈ orList a.groups b, PlainName x := by
      intro b hb x hx
      unfold orList at hx
      split at hx
      · exact hb x hx
      · exact hb x hx
      · rename_i l hl
        exact hpl.groups _ hl x hx
    split at hx
    · rw [mem_distinct] at hx
      rcases List.mem_append.mp hx with hx | hx
      · exact hor [] (fun _ h => by cases h) x hx
      · exact hmemplain x hx
    · exact hor _ hmemplain x hx
  have hgsne : (Val.list (sorted cur.groups)).eq (Val.list (userTarget a (some cur)).groups) = false → (userTarget a (some cur)).groups ≠ [] := by
    intro hne h0
    have h0 : sorted (if a.appendGroups then distinct ((orList a.groups []) ++ cur.groups) else orList a.groups cur.groups) = [] := h0
    have hc : cur.groups = [] := by
      rw [sorted_nil_iff] at h0
      split at h0
      · rw [distinct_nil_iff] at h0; simp at h0; exact h0.2
      · unfold orList at h0
        split at h0
        · exact h0
        · exact h0
        · rename_i h; subst h0; rename_i h'; exact absurd rfl (h' )
    have heq : (Val.list (sorted cur.groups)).eq (Val.list (userTarget a (some cur)).groups) = true := by
      rw [list_eq, hc]
      exact h0.symm
    rw [heq] at hne; cases hne
  have hstart : Stands a.user w w cur := ⟨OtherAccountsSame.refl _ _, hu, cur.gid, cur.groups, hacc, fun _ => Iff.rfl⟩
  have hoth : ∀ {w1 w2 p out err code}, OtherAccountsSame a.user w w1 → ∀ option v, p.argv = [p!"usermod", option, v, p!"--", a.user] →
      sys.exec p { w1 with started := p :: w1.started } = (.done out err code, w2) → OtherAccountsSame a.user w w2 := by
    intro w1 w2 p out err code ho option v hp hx
    exact others_started ht ho (by rw [hp]; exact .inr (.inl rfl)) (by rw [hp]; rfl) hx
  unfold userActions
  refine Post.bind (Post.changed hs rfl rfl ?_)
  simp only [Val.eq, BEq.rfl, Bool.not_true, Bool.false_eq_true, if_false, hpres, if_true]
  -- uid
  refine Post.bind ((usermodIf_post (R := fun w' => Stands a.user w w' { cur with uid := tu }) hs rfl rfl hstart.others ?_ ?_).mono ?_ fun _ h => h)
  · intro h
    rw [htu] at h
    rcases h with h | h
    · have := optInt_eq.mp h
      cases this
      exact hstart
    · cases h
  · intro v p out err code w1 hv _ hp hx
    rw [htu] at hv; cases hv
    refine ⟨hoth hstart.others _ _ hp hx, fun hc => ?_⟩
    subst hc; exact hstart.uid ht hp hx
  rintro _ _ w1 ⟨rfl, h1⟩
  -- group
  refine Post.bind ((usermodIf_post (R := fun w' => Stands a.user w w' { cur with uid := tu, group := tg }) hs rfl rfl h1.others ?_ ?_).mono ?_ fun _ h => h)
  · intro h
    rw [htg] at h
    rcases h with h | h
    · have := (optStr_eq _ _).mp h
      cases this
      exact h1
    · cases h
  · intro v p out err code w2 hv _ hp hx
    rw [htg] at hv; cases hv
    refine ⟨hoth h1.others _ _ hp hx, fun hc => ?_⟩
    subst hc; exact h1.gid ht hgplain hp hx
  rintro _ _ w2 ⟨rfl, h2⟩
  -- groups
  refine Post.bind ((usermodIf_post (R := fun w' => Stands a.user w w' { cur with uid := tu, group := tg, groups := (userTarget a (some cur)).groups }) hs rfl rfl h2.others ?_ ?_).mono ?_ fun _ h => h)
  · intro h
    have heq : (Val.list (sorted cur.groups)).eq (Val.list (userTarget a (some cur)).groups) = true := by
      rcases h with h | h
      · exact h
      · cases hx : (Val.list (sorted cur.groups)).eq (Val.list (userTarget a (some cur)).groups) with
        | true => rfl
        | false =>
          have := hgsne hx
          rw [if_pos (List.length_pos_iff.mpr this)] at h; cases h
    have hs' := list_eq.mp heq
    obtain ⟨gid, gs, k1, k2⟩ := h2.account
    refine ⟨h2.others, h2.unique, gid, gs, k1, fun x => ?_⟩
    rw [k2 x, ← hs']
    exact mem_sorted.symm
  · intro v p out err code w3 hv hne hp hx
    have hne' := hgsne hne
    rw [if_pos (List.length_pos_iff.mpr hne')] at hv; cases hv
    refine ⟨hoth h2.others _ _ hp hx, fun hc => ?_⟩
    subst hc; exact h2.groups ht hne' hgsplain hp hx
  rintro _ _ w3 ⟨rfl, h3⟩
  -- comment
  refine Post.bind ((usermodIf_post (R := fun w' => Stands a.user w w' { cur with uid := tu, group := tg, groups := (userTarget a (some cur)).groups, gecos := tc }) hs rfl rfl h3.others ?_ ?_).mono ?_ fun _ h => h)
  · intro h
    rw [htc] at h
    rcases h with h | h
    · have := (optStr_eq _ _).mp h
      cases this
      exact h3
    · cases h
  · intro v p out err code w4 hv _ hp hx
    rw [htc] at hv; cases hv
    refine ⟨hoth h3.others _ _ hp hx, fun hc => ?_⟩
    subst hc; exact h3.comment ht hp hx
  rintro _ _ w4 ⟨rfl, h4⟩
  -- home
  refine Post.bind ((usermodIf_post (R := fun w' => Stands a.user w w' { cur with uid := tu, group := tg, groups := (userTarget a (some cur)).groups, gecos := tc, home := (userTarget a (some cur)).home }) hs rfl rfl h4.others ?_ ?_).mono ?_ fun _ h => h)
  · intro h
    rcases h with h | h
    · have := (optStr_eq _ _).mp h
      have : cur.home = (userTarget a (some cur)).home := by simpa using this
      rw [← this]
      exact h4
    · cases h
  · intro v p out err code w5 hv _ hp hx
    cases hv
    refine ⟨hoth h4.others _ _ hp hx, fun hc => ?_⟩
    subst hc; exact h4.home ht hp hx
  rintro _ _ w5 ⟨rfl, h5⟩
  -- shell
  refine Post.bind ((usermodIf_post (R := fun w' => Stands a.user w w' { cur with uid := tu, group := tg, groups := (userTarget a (some cur)).groups, gecos := tc, home := (userTarget a (some cur)).home, shell := (userTarget a (some cur)).shell }) hs rfl rfl h5.others ?_ ?_).mono ?_ fun _ h => h)
  · intro h
    rcases h with h | h
    · have := (optStr_eq _ _).mp h
      have : cur.shell = (userTarget a (some cur)).shell := by simpa using this
      rw [← this]
      exact h5
    · cases h
  · intro v p out err code w6 hv _ hp hx
    cases hv
    refine ⟨hoth h5.others _ _ hp hx, fun hc => ?_⟩
    subst hc; exact h5.shell ht hp hx
  rintro _ _ w6 ⟨rfl, h6⟩
  -- password
  refine (usermodIf_post (R := fun w' => Stands a.user w w' { cur with uid := tu, group := tg, groups := (userTarget a (some cur)).groups, gecos := tc, home := (userTarget a (some cur)).home, shell := (userTarget a (some cur)).shell, passwordHash := some th }) hs rfl rfl h6.others ?_ ?_).mono ?_ fun _ h => h
  · intro h
    rw [hth] at h
    rcases h with h | h
    · have : cur.passwordHash = some th := (optStr_eq _ _).mp h
      rw [← this]
      exact h6
    · cases h
  · intro v p out err code w7 hv _ hp hx
    rw [hth] at hv; cases hv
    refine ⟨hoth h6.others _ _ hp hx, fun hc => ?_⟩
    subst hc; exact h6.password ht hp hx
  rintro _ _ w7 ⟨rfl, h7⟩
  refine ⟨rfl, _, h7, ?_⟩
  refine ⟨fun i h => ?_, fun g h => ?_, fun h => ?_, fun _ => Iff.rfl, ?_, rfl, rfl, ?_⟩
  · rw [htu] at h; cases h; rfl
  · rw [htg] at h; cases h; rfl
  · rw [htg] at h; cases h
  · rw [htc]; rfl
  · rw [hth]; rfl

theorem userState_eq {e e' : Bool} {i i' : Option Int} {g g' c c' h h' s s' p p' : Option Str} {l l' : List Str} :
    (userState e i g l c h s p).eq (userState e' i' g' l' c' h' s' p') = true
      ↔ e = e' ∧ i = i' ∧ g = g' ∧ l = l' ∧ c = c' ∧ h = h' ∧ s = s' ∧ p = p' := by
  have hd : (userState e i g l c h s p).eq (userState e' i' g' l' c' h' s' p')
      = ((Val.bool e).eq (.bool e') && ((Val.optInt i).eq (.optInt i') && ((Val.optStr g).eq (.optStr g') && ((Val.list l).eq (.list l')
        && ((Val.optStr c).eq (.optStr c') && ((Val.optStr h).eq (.optStr h') && ((Val.optStr s).eq (.optStr s') && ((Val.optStr p).eq (.optStr p') && true)))))))) := rfl
  rw [hd]
  simp only [Bool.and_eq_true, bool_eq, optInt_eq, optStr_eq, list_eq, and_true]

theorem orStr_fits {r : Option Str} {b : Str} (h : ∀ x, r = some x → x ≠ [] → b = x) : orStr r (some b) = some b := by
  match r with
  | none => rfl
  | some [] => rfl
  | some (c :: s) => rw [h _ rfl (by simp)]; rfl

theorem fits_iff (hn : u.groups.Nodup) (hh : u.passwordHash ≠ none) (hpres : a.present = true) :
    Fits a u ↔ (currentUser (some u)).eq (wantedUser a (userTarget a (some u))) = true := by
  unfold currentUser wantedUser
  rw [hpres]
  simp only [if_true]
  rw [userState_eq]
  simp only [userTarget, Option.map_some, Option.getD_some, Option.bind_some, true_and]
  constructor
  · intro h
    refine ⟨?_, (orStr_fits h.group).symm, ?_, (orStr_fits h.gecos).symm, ?_, ?_, ?_⟩
    · cases hi : a.uid with
      | none => rfl
      | some i =>
        by_cases h0 : i = 0
        · subst h0; rfl
        · rw [orInt_some h0, h.uid i hi h0]
    · cases hl : a.groups with
      | none =>
        cases a.appendGroups with
        | false => rfl
        | true => exact sorted_eq_of_mem hn (distinct_nodup _) fun x => by simp [mem_distinct, orList]
      | some l =>
        cases l with
        | nil =>
          cases a.appendGroups with
          | false => rfl
          | true => exact sorted_eq_of_mem hn (distinct_nodup _) fun x => by simp [mem_distinct, orList]
        | cons y ys =>
          have := h.groups _ hl (by simp)
          cases hap : a.appendGroups with
          | false => rw [hap] at this; exact sorted_eq_iff.mpr this
          | true =>
            rw [hap] at this
            simp only [if_true] at this ⊢
            refine sorted_eq_of_mem hn (distinct_nodup _) fun x => ?_
            rw [mem_distinct]
            simp only [orList, List.mem_append]
            exact ⟨.inr, fun hx => hx.elim (this x) id⟩
    · rw [orStr_fits h.home]; rfl
    · rw [orStr_fits h.shell]; rfl
    · cases hx : u.passwordHash with
      | none => exact absurd hx hh
      | some b =>
        refine (orStr_fits fun x h1 h2 => ?_).symm
        have := h.hash x h1 h2
        rw [hx] at this; cases this; rfl
  · rintro ⟨h1, h2, h3, h4, h5, h6, h7⟩
    have key : ∀ {r : Option Str} {b x : Str}, some b = orStr r (some b) → r = some x → x ≠ [] → b = x := by
      intro r b x h hr hx
      subst hr
      cases x with
      | nil => exact absurd rfl hx
      | cons c s => cases h; rfl
    have key' : ∀ {r : Option Str} {b x : Str}, some b = some ((orStr r (some b)).getD []) → r = some x → x ≠ [] → b = x := by
      intro r b x h hr hx
      subst hr
      cases x with
      | nil => exact absurd rfl hx
      | cons c s => exact Option.some.inj h
    refine ⟨?_, fun g => key h2, ?_, fun x => key h4, fun x => key' h5, fun x => key' h6, ?_⟩
    · intro i hi h0
      rw [hi, orInt_some h0] at h1; cases h1; rfl
    · intro l hl h0
      have ho : ∀ b, orList a.groups b = l := by
        intro b; rw [hl]
        cases l with
        | nil => exact absurd rfl h0
        | cons => rfl
      rw [ho, ho] at h3
      cases hap : a.appendGroups with
      | false => rw [hap] at h3; exact sorted_eq_iff.mp h3
      | true =>
        rw [hap] at h3
        simp only [if_true] at h3 ⊢
        intro x hx
        rw [mem_of_sorted_eq h3, mem_distinct]
        exact List.mem_append.mpr (.inl hx)
    · intro x hx h0
      rw [hx] at h7
      cases x with
      | nil => exact absurd rfl h0
      | cons c s => exact h7

/-- What was reached fits. -/
theorem Reached.fits {cur : Option UserEntry} (h : Reached a (userTarget a cur) u) (hn : u.groups.Nodup)
    (hd : ∀ l, a.groups = some l → a.appendGroups = false → l.Nodup) : Fits a u := by
  have key : ∀ {r b : Option Str} {x : Str}, r = some x → x ≠ [] → orStr r b = some x := by
    intro r b x hr hx
    subst hr
    cases x with
    | nil => exact absurd rfl hx
    | cons => rfl
  refine ⟨fun i hi h0 => h.uid i ?_, fun g hg h0 => h.group g (key hg h0), ?_, fun x hx h0 => ?_, fun x hx h0 => ?_, fun x hx h0 => ?_, fun x hx h0 => ?_⟩
  · show orInt a.uid _ = _
    rw [hi, orInt_some h0]
  · intro l hl h0
    have ho : ∀ b, orList a.groups b = l := by
      intro b; rw [hl]
      cases l with
      | nil => exact absurd rfl h0
      | cons => rfl
    have hg : ∀ x, x ∈ u.groups ↔ x ∈ sorted (if a.appendGroups then distinct ((orList a.groups []) ++ (cur.map (·.groups)).getD [])
      else orList a.groups ((cur.map (·.groups)).getD [])) := h.groups
    rw [ho, ho] at hg
    cases hap : a.appendGroups with
    | false =>
      simp only [hap, Bool.false_eq_true, if_false, mem_sorted] at hg ⊢
      exact sorted_eq_iff.mp (sorted_eq_of_mem hn (hd l hl hap) hg)
    | true =>
      simp only [hap, if_true, mem_sorted, mem_distinct, List.mem_append] at hg ⊢
      exact fun x hx => (hg x).mpr (.inl hx)
  · rw [h.gecos]
    have : (userTarget a cur).comment = some x := key hx h0
    rw [this]; rfl
  · rw [h.home]
    show (orStr a.home _).getD [] = x
    rw [key hx h0]; rfl
  · rw [h.shell]
    show (orStr a.shell _).getD [] = x
    rw [key hx h0]; rfl
  · rw [h.hash]
    have : (userTarget a cur).passwordHash = some x := key hx h0
    rw [this]; rfl

/-- What was reached is what was asked for. -/
theorem Reached.userAs {cur : Option UserEntry} (hcur : accountOf w0 a.user = cur) (hh : ∀ c, cur = some c → c.passwordHash ≠ none)
    (h : Reached a (userTarget a cur) u) (hs : Stands a.user w0 w u) : UserAs a w0 w := by
  obtain ⟨gid, gs, ha, hgs⟩ := hs.account
  have key : ∀ {r b : Option Str} {x : Str}, r = some x → x ≠ [] → orStr r b = some x := by
    intro r b x hr hx
    subst hr
    cases x with
    | nil => exact absurd rfl hx
    | cons => rfl
  have should : ∀ {r b : Option Str} {d : Str}, r ≠ some [] → (orStr r b).getD d = ShouldBe r b d := by
    intro r b d hr
    match r with
    | none => rfl
    | some [] => exact absurd rfl hr
    | some (c :: s) => rfl
  have should' : ∀ {r b : Option Str} {d e : Str}, r ≠ some [] → (orStr r (some (b.getD d))).getD e = ShouldBe r b d := by
    intro r b d e hr
    match r with
    | none => rfl
    | some [] => exact absurd rfl hr
    | some (c :: s) => rfl
  refine ⟨_, ha, fun i hi h0 => h.uid i ?_, fun u0 h0 hi => h.uid _ ?_, fun g hg h0 => h.group g (key hg h0), fun u0 h0 hg => h.group _ ?_, fun h0 hg => h.ownGroup ?_, ?_, ?_,
    fun hx => ?_, fun hx => ?_, fun hx => ?_, fun hx => ?_⟩
  · show orInt a.uid _ = _
    rw [hi, orInt_some h0]
  · show orInt a.uid _ = _
    rw [hi, ← hcur, h0]; rfl
  · show orStr a.group _ = _
    rw [hg, ← hcur, h0]; rfl
  · show orStr a.group _ = _
    rw [hg, ← hcur, h0]; rfl
  · intro l hl h0 x
    have ho : ∀ b, orList a.groups b = l := by
      intro b; rw [hl]
      cases l with
      | nil => exact absurd rfl h0
      | cons => rfl
    have hg : x ∈ u.groups ↔ x ∈ sorted (if a.appendGroups then distinct ((orList a.groups []) ++ (cur.map (·.groups)).getD [])
      else orList a.groups ((cur.map (·.groups)).getD [])) := h.groups x
    rw [hgs x, hg, ho, ho, hcur, mem_sorted]
    cases hap : a.appendGroups with
    | false => simp
    | true =>
      simp only [if_true, mem_distinct, List.mem_append, true_and]
      cases cur <;> simp
  · intro hl x
    have hg : x ∈ u.groups ↔ x ∈ sorted (if a.appendGroups then distinct ((orList a.groups []) ++ (cur.map (·.groups)).getD [])
      else orList a.groups ((cur.map (·.groups)).getD [])) := h.groups x
    rw [hgs x, hg, hl, hcur, mem_sorted]
    cases hap : a.appendGroups with
    | false => cases cur <;> simp [orList]
    | true =>
      simp only [if_true, mem_distinct, List.mem_append, orList]
      cases cur <;> simp
  · exact h.gecos.trans (by rw [hcur]; exact should hx)
  · exact h.home.trans (by rw [hcur]; exact should' hx)
  · exact h.shell.trans (by rw [hcur]; exact should' hx)
  · exact h.hash.trans (by rw [hcur]; exact congrArg some (should hx))

/-- `user` does what it says and leaves other accounts alone. -/
theorem user_post (ht : UserTools sys) (hpl : PlainUserArgs a) (hu : UniqueGroups w) (hstale : userNamed w a.user = none → memberOf w a.user = [])
    (hcomplete : a.present = false → accountOf w a.user = none → userNamed w a.user = none) {check : Bool} :
    Post sys lost (user a check) env st w
      (fun r _ w' => (r.success = true ∧ OtherAccountsSame a.user w w')
        ∧ (env.dry = false → if a.present then ∃ u, Stands a.user w w' u ∧ Reached a (userTarget a (accountOf w a.user)) u
          else userNamed w' a.user = none)) (OtherAccountsSame a.user w) := by
  have hrefl := OtherAccountsSame.refl a.user w
  unfold user
  refine Post.operation (Post.bind (Post.queryUser hpl.user.2.2 ?_ hrefl))
  generalize hcur : accountOf w a.user = cur at hcomplete
  have hhash : ∀ c, cur = some c → c.passwordHash ≠ none ∧ c.groups.Nodup := by
    rintro c rfl
    obtain ⟨e, h, g, _, _, _, h4⟩ := accountOf_iff.mp hcur
    rw [h4]; exact ⟨by simp, memberOf_nodup hu _⟩
  refine Post.bind (Post.initialState rfl rfl ?_)
  refine Post.bind (Post.finalState rfl rfl ?_)
  refine Post.returned ?_
  refine Post.settle (i := currentUser cur) (f := wantedUser a (userTarget a cur)) ⟨printable_user _ _ _, rfl, rfl, rfl⟩ ?_ (Post.pure ⟨⟨⟨printable_user _ _ _, rfl, rfl, rfl⟩, rfl⟩, rfl⟩) ?_ ?_
  · intro heq
    refine ⟨hrefl, ?_⟩
    rintro res ⟨⟩ _
    refine ⟨⟨rfl, hrefl⟩, fun _ => ?_⟩
    cases hpres : a.present with
    | false =>
      simp only [Bool.false_eq_true, if_false]
      cases cur with
      | none => exact hcomplete hpres rfl
      | some c =>
        unfold wantedUser at heq
        rw [hpres] at heq
        simp only [Bool.false_eq_true, if_false, currentUser, userState_eq] at heq
        cases heq.1
    | true =>
      simp only [if_true]
      cases cur with
      | none =>
        unfold wantedUser at heq
        rw [hpres] at heq
        simp only [if_true, currentUser, userState_eq] at heq
        cases heq.1
      | some c =>
        refine ⟨c, ⟨hrefl, hu, c.gid, c.groups, hcur, fun _ => Iff.rfl⟩, ?_⟩
        unfold wantedUser at heq
        rw [hpres] at heq
        simp only [if_true, currentUser, userState_eq] at heq
        obtain ⟨_, h1, h2, h3, h4, h5, h6, h7⟩ := heq
        refine ⟨fun i h => ?_, fun g h => ?_, fun h => ?_, fun x => ?_, ?_, ?_, ?_, ?_⟩
        · rw [h] at h1; cases h1; rfl
        · rw [h] at h2; cases h2; rfl
        · rw [h] at h2; cases h2
        · rw [← h3, mem_sorted]
        · rw [← h4]; rfl
        · simpa using h5
        · simpa using h6
        · rw [← h7]
          cases hx : c.passwordHash with
          | none => exact absurd hx (hhash c rfl).1
          | some _ => rfl
  · intro hd _ st' _
    refine ⟨hrefl, ?_⟩
    rintro res ⟨⟩ _
    exact ⟨⟨rfl, hrefl⟩, fun h => by rw [hd] at h; cases h⟩
  · intro hd hne st' hs _
    cases hpres : a.present with
    | true =>
      cases cur with
      | some c =>
        refine (userActions_modify ht hpl hpres hcur hu rfl rfl hs).mono ?_ fun _ h => h
        rintro _ _ w1 ⟨rfl, u, h1, h2⟩
        refine ⟨rfl, h1.others, ?_⟩
        rintro res ⟨⟩ _
        exact ⟨⟨rfl, h1.others⟩, fun _ => ⟨u, h1, h2⟩⟩
      | none =>
        have hs' : States st' (currentUser none) (userState true (userTarget a none).uid (userTarget a none).group (userTarget a none).groups (userTarget a none).comment
            (some (userTarget a none).home) (some (userTarget a none).shell) (userTarget a none).passwordHash) := by
          unfold wantedUser at hs
          rw [if_pos hpres] at hs
          exact hs
        unfold userActions
        refine Post.bind (Post.changed hs' rfl rfl ?_)
        simp only [Val.eq, hpres, if_true]
        refine Post.runAny (fun p out err code w' hp hx => ?_) hrefl
        have hl : p.argv.getLast? = some a.user := by
          rw [hp, useradd_argv]; unfold NewUser.argv; rw [List.getLast?_append]; rfl
        have hh : p.argv.head? = some p!"useradd" := by
          rw [hp, useradd_argv]; unfold NewUser.argv; simp only [List.append_assoc]; rfl
        have ho := others_started ht hrefl (.inl hh) hl hx
        refine ⟨ho, fun hc => ⟨rfl, ho, ?_⟩⟩
        subst hc
        obtain ⟨u, h1, h2⟩ := Stands.add ht hrefl hu hpl.user (t := userTarget a none) (by
            intro g hg
            have hg : orStr a.group none = some g := hg
            rcases orStr_or (r := a.group) (b := none) with h | h
            · rw [hg] at h; exact hpl.group g h.symm
            · rw [hg] at h; cases h) (by
            intro x hx
            have hx : x ∈ sorted (if a.appendGroups then distinct (orList a.groups [] ++ []) else orList a.groups []) := hx
            have hor : x ∈ orList a.groups [] := by
              rw [mem_sorted] at hx
              split at hx
              · rw [mem_distinct] at hx; simpa using hx
              · exact hx
            unfold orList at hor
            split at hor
            · cases hor
            · cases hor
            · rename_i l hl; exact hpl.groups _ hl x hor) (by
            show orStr a.passwordHash none ≠ some []
            match a.passwordHash with
            | none => intro h; cases h
            | some [] => intro h; cases h
            | some (c :: s) => intro h; cases h) hstale hp hx
        rintro res ⟨⟩ _
        exact ⟨⟨rfl, ho⟩, fun _ => ⟨u, h1, h2⟩⟩
    | false =>
      have hw : wantedUser a (userTarget a cur) = userState false none none [] none none none none := by
        unfold wantedUser; rw [hpres]; rfl
      rw [hw] at hs hne
      unfold userActions
      cases cur with
      | none => cases hne
      | some c =>
        refine Post.bind (Post.changed hs rfl rfl ?_)
        simp only [Val.eq, hpres]
        refine Post.runAny (fun p out err code w' hp hx => ?_) hrefl
        have ho := others_started ht hrefl (by rw [hp]; exact .inr (.inr rfl)) (by rw [hp]; rfl) hx
        refine ⟨ho, fun hc => ⟨rfl, ho, ?_⟩⟩
        subst hc
        rintro res ⟨⟩ _
        exact ⟨⟨rfl, ho⟩, fun _ => ht.delete p _ out err w' a.user hp hx⟩

theorem usermodIf_others (ht : UserTools sys) {w0 : World} {i f : Dict} (hs : States st i f) {key option user : Str} {value : Option Str} {x y : Val}
    (ha : i.get key = some x) (hb : f.get key = some y) (ho : OtherAccountsSame user w0 w) :
    Post sys lost (usermodIf key option value user) env st w (fun _ st' w' => st' = st ∧ OtherAccountsSame user w0 w') (OtherAccountsSame user w0) :=
  usermodIf_post hs ha hb ho (fun _ => ho) fun _ _ _ _ _ _ _ _ hp hx =>
    have h := others_started ht ho (by rw [hp]; exact .inr (.inl rfl)) (by rw [hp]; rfl) hx
    ⟨h, fun _ => h⟩

/-- Whatever there is on the host, `user` leaves other accounts alone, and removes the account if it is complete. -/
theorem user_frame (ht : UserTools sys) (hname : Py.parseInt 10 a.user = none) {check : Bool} :
    Post sys lost (user a check) env st w
      (fun r _ w' => (r.success = true ∧ OtherAccountsSame a.user w w')
        ∧ (env.dry = false → a.present = false → accountOf w a.user ≠ none ∨ userNamed w a.user = none → userNamed w' a.user = none))
      (OtherAccountsSame a.user w) := by
  have hrefl := OtherAccountsSame.refl a.user w
  unfold user
  refine Post.operation (Post.bind (Post.queryUser hname ?_ hrefl))
  generalize hcur : accountOf w a.user = cur
  refine Post.bind (Post.initialState rfl rfl ?_)
  refine Post.bind (Post.finalState rfl rfl ?_)
  refine Post.returned ?_
  refine Post.settle (i := currentUser cur) (f := wantedUser a (userTarget a cur)) ⟨printable_user _ _ _, rfl, rfl, rfl⟩ ?_ (Post.pure ⟨⟨⟨printable_user _ _ _, rfl, rfl, rfl⟩, rfl⟩, rfl⟩) ?_ ?_
  · intro heq
    refine ⟨hrefl, ?_⟩
    rintro res ⟨⟩ _
    refine ⟨⟨rfl, hrefl⟩, fun _ hpres hc => ?_⟩
    rcases hc with hc | hc
    · cases cur with
      | none => exact absurd rfl hc
      | some c =>
        unfold wantedUser at heq
        rw [hpres] at heq
        simp only [Bool.false_eq_true, if_false, currentUser, userState_eq] at heq
        cases heq.1
    · exact hc
  · intro hd _ st' _
    refine ⟨hrefl, ?_⟩
    rintro res ⟨⟩ _
    exact ⟨⟨rfl, hrefl⟩, fun h => by rw [hd] at h; cases h⟩
  · intro hd hne st' hs _
    cases hpres : a.present with
    | true =>
      refine Post.mono (Q := fun _ st1 w1 => st1 = st' ∧ OtherAccountsSame a.user w w1) ?_ ?_ fun _ h => h
      · have hw : wantedUser a (userTarget a cur) = userState true (userTarget a cur).uid (userTarget a cur).group (userTarget a cur).groups
            (userTarget a cur).comment (some (userTarget a cur).home) (some (userTarget a cur).shell) (userTarget a cur).passwordHash := by
          unfold wantedUser; rw [if_pos hpres]
        rw [hw] at hs
        unfold userActions
        cases cur with
        | none =>
          refine Post.bind (Post.changed hs rfl rfl ?_)
          simp only [Val.eq, hpres, if_true]
          refine Post.runAny (fun p out err code w' hp hx => ?_) hrefl
          have hl : p.argv.getLast? = some a.user := by
            rw [hp, useradd_argv]; unfold NewUser.argv; rw [List.getLast?_append]; rfl
          have hh : p.argv.head? = some p!"useradd" := by
            rw [hp, useradd_argv]; unfold NewUser.argv; simp only [List.append_assoc]; rfl
          have ho := others_started ht hrefl (.inl hh) hl hx
          exact ⟨ho, fun _ => ⟨rfl, ho⟩⟩
        | some c =>
          refine Post.bind (Post.changed hs rfl rfl ?_)
          simp only [Val.eq, hpres, if_true]
          refine Post.bind ((usermodIf_others ht hs rfl rfl hrefl).mono ?_ fun _ h => h)
          rintro _ _ w1 ⟨rfl, h1⟩
          refine Post.bind ((usermodIf_others ht hs rfl rfl h1).mono ?_ fun _ h => h)
          rintro _ _ w2 ⟨rfl, h2⟩
          refine Post.bind ((usermodIf_others ht hs rfl rfl h2).mono ?_ fun _ h => h)
          rintro _ _ w3 ⟨rfl, h3⟩
          refine Post.bind ((usermodIf_others ht hs rfl rfl h3).mono ?_ fun _ h => h)
          rintro _ _ w4 ⟨rfl, h4⟩
          refine Post.bind ((usermodIf_others ht hs rfl rfl h4).mono ?_ fun _ h => h)
          rintro _ _ w5 ⟨rfl, h5⟩
          refine Post.bind ((usermodIf_others ht hs rfl rfl h5).mono ?_ fun _ h => h)
          rintro _ _ w6 ⟨rfl, h6⟩
          exact usermodIf_others ht hs rfl rfl h6
      · rintro _ _ w1 ⟨rfl, h1⟩
        refine ⟨rfl, h1, ?_⟩
        rintro res ⟨⟩ _
        exact ⟨⟨rfl, h1⟩, fun _ h => by cases h⟩
    | false =>
      have hw : wantedUser a (userTarget a cur) = userState false none none [] none none none none := by
        unfold wantedUser; rw [hpres]; rfl
      rw [hw] at hs hne
      unfold userActions
      cases cur with
      | none => cases hne
      | some c =>
        refine Post.bind (Post.changed hs rfl rfl ?_)
        simp only [Val.eq, hpres]
        refine Post.runAny (fun p out err code w' hp hx => ?_) hrefl
        have ho := others_started ht hrefl (by rw [hp]; exact .inr (.inr rfl)) (by rw [hp]; rfl) hx
        refine ⟨ho, fun hc => ⟨rfl, ho, ?_⟩⟩
        subst hc
        rintro res ⟨⟩ _
        exact ⟨⟨rfl, ho⟩, fun _ _ _ => ht.delete p _ out err w' a.user hp hx⟩

/-- If the account is as requested, nothing happens. -/
theorem user_calm (hname : Py.parseInt 10 a.user = none) (hu : a.present = true → UniqueGroups w) {check : Bool}
    (h : if a.present then ∃ u, accountOf w a.user = some u ∧ Fits a u else userNamed w a.user = none) :
    Post sys lost (user a check) env st w (fun r _ w' => (r.success = true ∧ r.changed = false) ∧ Same w w') (Same w) := by
  have hrefl : Same w w := same_refl w
  unfold user
  refine Post.operation (Post.bind (Post.queryUser hname ?_ hrefl))
  refine Post.bind (Post.initialState rfl rfl ?_)
  refine Post.bind (Post.finalState rfl rfl ?_)
  refine Post.returned ?_
  have heq : (currentUser (accountOf w a.user)).eq (wantedUser a (userTarget a (accountOf w a.user))) = true := by
    cases hpres : a.present with
    | false =>
      rw [hpres] at h
      have h : userNamed w a.user = none := h
      have : accountOf w a.user = none := by unfold accountOf; rw [h]
      rw [this]
      unfold wantedUser
      rw [hpres]; rfl
    | true =>
      rw [hpres] at h
      obtain ⟨u, h1, h2⟩ := h
      rw [h1]
      obtain ⟨e, hh, g, _, _, _, h4⟩ := accountOf_iff.mp h1
      exact (fits_iff (by rw [h4]; exact memberOf_nodup (hu hpres) _) (by rw [h4]; simp) hpres).mp h2
  refine Post.settle (i := currentUser (accountOf w a.user)) (f := wantedUser a (userTarget a (accountOf w a.user))) ⟨printable_user _ _ _, rfl, rfl, rfl⟩ ?_
    (Post.pure ⟨⟨⟨printable_user _ _ _, rfl, rfl, rfl⟩, rfl⟩, rfl⟩) ?_ ?_
  · intro _
    refine ⟨hrefl, ?_⟩
    rintro res ⟨⟩ _
    exact ⟨⟨rfl, rfl⟩, hrefl⟩
  · intro _ h; rw [heq] at h; cases h
  · intro _ h; rw [heq] at h; cases h

end
end Verif.Ops
