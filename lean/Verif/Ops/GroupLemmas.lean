/-
Lemmas about `group`.
-/
import Verif.Ops.AccountSpec
import Verif.Ops.PackageHostLemmas

namespace Verif.Ops

open Script Remote
open Client (Prog direct lostConnection Completed GroupEntry)
open Wire (Packet)

section
variable {sys : Sys} {lost : Nat → Option Bool} {env : Env} {st st' : St} {w w' : World}

/-- Asking for something, where a ValueError means that it does not exist. -/
theorem Post.orDefault {α : Type} {p : Prog (Except Exn α)} {d : Option α} (hp : Single p) (hw : (p.run (direct sys) w).2 = w)
    {Q : Option α → St → World → Prop} {E : World → Prop} (hok : ∀ a, (p.run (direct sys) w).1 = .ok a → Q (some a) st w)
    (herr : ∀ e, (p.run (direct sys) w).1 = .error e → e.isValueError = true → Q d st w) (hE : E w) :
    Post sys lost (Connection.orDefault (do let u ← Op.call p; return some u) d) env st w Q E := by
  obtain ⟨pk, f, rfl, hf⟩ := hp
  intro k
  unfold Connection.orDefault
  rw [exec_tryCatch, exec_bind, exec_call]
  simp only [Prog.run] at hw hok herr
  simp only [Prog.run, flaky]
  cases lost k with
  | some b =>
    cases b with
    | false => simp only [hf]; exact hE
    | true => simp only [hf, hw]; exact hE
  | none =>
    simp only [hw]
    cases hr : f (direct sys pk w).1 with
    | ok a => exact hok a hr
    | error e =>
      simp only
      by_cases hv : e.isValueError = true
      · rw [if_pos hv]; exact herr e hr hv
      · rw [if_neg hv]; exact hE

theorem single_queryGroup (g : Str) : Single (Client.Connector.queryGroup g) := ⟨_, _, rfl, rfl⟩
theorem single_queryUser (u : Str) (b : Bool) : Single (Client.Connector.queryUser u b) := ⟨_, _, rfl, rfl⟩

/-- What asking for a group tells. -/
theorem queryGroup_answer {name : Str} (hname : Py.parseInt 10 name = none) :
    (hasNul name = true ∧ ((Client.Connector.queryGroup name).run (direct sys) w).1 = .error lostConnection)
    ∨ (∃ e, groupNamed w name = some e ∧ ((Client.Connector.queryGroup name).run (direct sys) w).1 = .ok { name := e.name, gid := e.gid, members := e.members })
    ∨ (groupNamed w name = none ∧ ∃ m, ((Client.Connector.queryGroup name).run (direct sys) w).1 = .error (.valueError m)) := by
  simp only [Client.Connector.queryGroup, Prog.run, direct, handle]
  unfold handleQueryGroup getgrnam groupNamed
  rw [hname]
  by_cases hn : hasNul name = true
  · rw [if_pos hn]; exact .inl ⟨hn, rfl⟩
  · rw [if_neg hn]
    refine .inr ?_
    cases w.groups.find? (·.name == name) with
    | some e => exact .inl ⟨e, rfl, rfl⟩
    | none => exact .inr ⟨rfl, _, rfl⟩

theorem Post.queryGroup {name : Str} (hname : Py.parseInt 10 name = none) {Q : Option GroupEntry → St → World → Prop} {E : World → Prop}
    (h : Q ((groupNamed w name).map fun e => { name := e.name, gid := e.gid, members := e.members }) st w) (hE : E w) :
    Post sys lost (Connection.queryGroup name) env st w Q E := by
  rcases queryGroup_answer (sys := sys) (w := w) hname with ⟨_, hq⟩ | ⟨e, he, hq⟩ | ⟨he, m, hq⟩
  · refine Post.orDefault (single_queryGroup _) (direct_query _ rfl) ?_ ?_ hE
    · intro a ha; rw [hq] at ha; cases ha
    · intro a ha hv; rw [hq] at ha; cases ha; cases hv
  · refine Post.orDefault (single_queryGroup _) (direct_query _ rfl) ?_ ?_ hE
    · intro a ha; rw [hq] at ha; cases ha; rw [he] at h; exact h
    · intro a ha hv; rw [hq] at ha; cases ha
  · refine Post.orDefault (single_queryGroup _) (direct_query _ rfl) ?_ ?_ hE
    · intro a ha; rw [hq] at ha; cases ha
    · intro a ha hv; rw [he] at h; exact h

theorem optInt_eq {x y : Option Int} : (Val.optInt x).eq (Val.optInt y) = true ↔ x = y := by
  cases x <;> cases y <;> simp [Val.optInt, Val.eq]

theorem list_eq {x y : List Str} : (Val.list x).eq (Val.list y) = true ↔ x = y := by
  simp [Val.eq]

theorem groupState_eq {a b : Bool} {x y : Option Int} : (groupState a x).eq (groupState b y) = true ↔ a = b ∧ x = y := by
  have h : (groupState a x).eq (groupState b y) = ((Val.bool a).eq (.bool b) && ((Val.optInt x).eq (.optInt y) && true)) := rfl
  rw [h, Bool.and_eq_true, Bool.and_eq_true, bool_eq, optInt_eq]
  simp

theorem orInt_zero {x : Option Int} : orInt (some 0) x = x := rfl
theorem orInt_some {i : Int} (h : i ≠ 0) {x : Option Int} : orInt (some i) x = some i := by
  simp [orInt, h]

/-- `group` does what it says, for values of `gid` that are not 0, and leaves other groups alone. -/
theorem group_post (ht : GroupTools sys) {name : Str} (hname : Py.parseInt 10 name = none) {present : Bool} {gid : Option Int} {system check : Bool} :
    Post sys lost (group name present gid system check) env st w
      (fun r _ w' => (r.success = true ∧ OtherGroupsSame name w w')
        ∧ (env.dry = false → if present then GroupAs name gid w w' else groupNamed w' name = none)) (OtherGroupsSame name w) := by
  have hrefl : OtherGroupsSame name w w := fun _ _ => Iff.rfl
  unfold group
  refine Post.operation (Post.bind (Post.queryGroup hname ?_ hrefl))
  generalize hcur : ((groupNamed w name).map fun e => ({ name := e.name, gid := e.gid, members := e.members } : GroupEntry)) = cur
  refine Post.bind (Post.initialState rfl rfl ?_)
  refine Post.bind (Post.finalState rfl rfl ?_)
  refine Post.returned ?_
  generalize hf : (if present then groupState true (orInt gid (cur.map (·.gid))) else groupState false none) = f
  have hpr : printable (groupState cur.isSome (cur.map (·.gid))) f = true := by rw [← hf]; cases present <;> rfl
  refine Post.settle (i := groupState cur.isSome (cur.map (·.gid))) (f := f) ⟨hpr, rfl, rfl, rfl⟩ ?_ (Post.pure ⟨⟨⟨hpr, rfl, rfl, rfl⟩, rfl⟩, rfl⟩) ?_ ?_
  · intro heq
    refine ⟨hrefl, ?_⟩
    rintro res ⟨⟩ _
    refine ⟨⟨rfl, hrefl⟩, fun _ => ?_⟩
    subst hf
    cases present with
    | false =>
      simp only [Bool.false_eq_true, if_false, groupState_eq] at heq ⊢
      rw [← hcur] at heq
      simpa using heq.1
    | true =>
      simp only [if_true, groupState_eq] at heq ⊢
      cases hg : groupNamed w name with
      | none => rw [← hcur, hg] at heq; simp at heq
      | some e =>
        refine ⟨e, hg, ?_, ?_⟩
        · rintro i rfl hi
          rw [← hcur, hg, orInt_some hi] at heq
          simpa using heq.2
        · intro e0 h0; rw [hg] at h0; cases h0; exact ⟨rfl, fun _ => rfl⟩
  · intro hd _ st' _
    refine ⟨hrefl, ?_⟩
    rintro res ⟨⟩ _
    exact ⟨⟨rfl, hrefl⟩, fun h => by rw [hd] at h; cases h⟩
  · intro hd hne st' hs _
    have hothers : ∀ p out err code w', (p.argv.head? = some p!"groupadd" ∨ p.argv.head? = some p!"groupmod" ∨ p.argv.head? = some p!"groupdel") →
        p.argv.getLast? = some name → sys.exec p { w with started := p :: w.started } = (.done out err code, w') → OtherGroupsSame name w w' := by
      intro p out err code w' h1 h2 h3 e he
      exact ht.others p _ out err code w' name h1 h2 h3 e he
    unfold groupActions
    subst hf
    cases present with
    | false =>
      simp only [Bool.false_eq_true, if_false] at hs hne ⊢
      refine Post.bind (Post.changed hs rfl rfl ?_)
      cases hg : groupNamed w name with
      | none => rw [← hcur, hg] at hne; cases hne
      | some e =>
        rw [← hcur, hg]
        simp only [Option.map_some, Option.isSome_some, Val.eq]
        refine Post.runAny (fun p out err code w' hp hx => ?_) hrefl
        have ho := hothers p out err code w' (by rw [hp]; exact .inr (.inr rfl)) (by rw [hp]; rfl) hx
        refine ⟨ho, fun hc => ⟨rfl, ho, ?_⟩⟩
        rintro res ⟨⟩ _
        refine ⟨⟨rfl, ho⟩, fun _ => ?_⟩
        subst hc
        have := ht.delete p _ out err w' name hp hx
        unfold groupNamed
        rw [this]
        simp
    | true =>
      simp only [if_true] at hs hne ⊢
      refine Post.bind (Post.changed hs rfl rfl ?_)
      cases hg : groupNamed w name with
      | none =>
        rw [← hcur, hg]
        simp only [Option.map_none, Option.isSome_none, Val.eq]
        refine Post.runAny (fun p out err code w' hp hx => ?_) hrefl
        have ho := hothers p out err code w' (by rw [hp]; exact .inl rfl) (by rw [hp]; unfold groupaddCommand; rw [List.getLast?_append]; rfl) hx
        refine ⟨ho, fun hc => ⟨rfl, ho, ?_⟩⟩
        rintro res ⟨⟩ _
        refine ⟨⟨rfl, ho⟩, fun _ => ?_⟩
        subst hc
        have hp' : p.argv = [p!"groupadd"] ++ (if system then [p!"--system"] else [])
            ++ (match (orInt gid none).map Py.intStr with | none => [] | some g => [p!"--gid", g]) ++ [p!"--", name] := by
          rw [hp]; unfold groupaddCommand optArg
          cases orInt gid none <;> rfl
        obtain ⟨h1, g, h2, h3⟩ := ht.add p _ out err w' system _ name hp' hx
        refine ⟨⟨name, g, []⟩, ?_, ?_, ?_⟩
        · unfold groupNamed at hg ⊢
          rw [h3, List.find?_append, hg]
          simp
        · rintro i rfl hi
          exact (h2 _ i (by rw [orInt_some hi]; rfl) (Py.parseInt_intStr i)).symm
        · intro e0 h0; rw [hg] at h0; cases h0
      | some e =>
        rw [← hcur, hg] at hs hne ⊢
        simp only [Option.map_some, Option.isSome_some, Val.eq] at hs hne ⊢
        refine Post.whenChanged hs rfl rfl ?_ ?_
        · intro hch
          have hgid : ∃ i, gid = some i ∧ i ≠ 0 ∧ i ≠ e.gid := by
            cases gid with
            | none => exfalso; simp [orInt, Val.optInt, Val.eq] at hch
            | some i =>
              by_cases hi : i = 0
              · subst hi; rw [orInt_zero, optInt_eq.mpr rfl] at hch; cases hch
              · refine ⟨i, rfl, hi, fun h => ?_⟩
                rw [orInt_some hi, optInt_eq.mpr (by rw [h])] at hch; cases hch
          obtain ⟨i, rfl, hi, hne⟩ := hgid
          rw [orInt_some hi]
          refine Post.runAny (fun p out err code w' hp hx => ?_) hrefl
          have ho := hothers p out err code w' (by rw [hp]; exact .inr (.inl rfl)) (by rw [hp]; rfl) hx
          refine ⟨ho, fun hc => ⟨rfl, ho, ?_⟩⟩
          rintro res ⟨⟩ _
          refine ⟨⟨rfl, ho⟩, fun _ => ?_⟩
          subst hc
          obtain ⟨g, h2, h3⟩ := ht.modify p _ out err w' _ i name hp (Py.parseInt_intStr i) hx
          have hn : e.name = name := by simpa using List.find?_some hg
          refine ⟨{ e with gid := g }, ?_, ?_, ?_⟩
          · unfold groupNamed at hg ⊢
            rw [h3, List.find?_map]
            have : ((fun x : GrEntry => x.name == name) ∘ fun e : GrEntry => if e.name = name then { e with gid := g } else e) = fun x => x.name == name := by
              funext x
              simp only [Function.comp]
              split <;> rfl
            rw [this]
            rw [hg]
            simp [hn]
          · rintro j ⟨⟩ _; exact h2.symm
          · intro e0 h0; rw [hg] at h0; cases h0
            exact ⟨rfl, fun h => by cases h⟩
        · intro hch
          exfalso
          have : (groupState true (some (e.gid : Int))).eq (groupState true (orInt gid (some (e.gid : Int)))) = true := by
            rw [groupState_eq]; exact ⟨rfl, optInt_eq.mp hch⟩
          rw [this] at hne
          cases hne

/-- If the group is as requested, nothing happens. -/
theorem group_calm {name : Str} (hname : Py.parseInt 10 name = none) {present : Bool} {gid : Option Int} {system check : Bool}
    (h : if present then ∃ e, groupNamed w name = some e ∧ (∀ i, gid = some i → i ≠ 0 → (e.gid : Int) = i) else groupNamed w name = none) :
    Post sys lost (group name present gid system check) env st w (fun r _ w' => (r.success = true ∧ r.changed = false) ∧ Same w w') (Same w) := by
  have hrefl : Same w w := same_refl w
  unfold group
  refine Post.operation (Post.bind (Post.queryGroup hname ?_ hrefl))
  generalize hcur : ((groupNamed w name).map fun e => ({ name := e.name, gid := e.gid, members := e.members } : GroupEntry)) = cur
  refine Post.bind (Post.initialState rfl rfl ?_)
  refine Post.bind (Post.finalState rfl rfl ?_)
  refine Post.returned ?_
  generalize hf : (if present then groupState true (orInt gid (cur.map (·.gid))) else groupState false none) = f
  have heq : (groupState cur.isSome (cur.map (·.gid))).eq f = true := by
    subst hf
    cases present with
    | false =>
      simp only [Bool.false_eq_true, if_false] at h ⊢
      rw [← hcur, h]; rfl
    | true =>
      simp only [if_true] at h ⊢
      obtain ⟨e, he, hg⟩ := h
      rw [← hcur, he, groupState_eq]
      refine ⟨rfl, ?_⟩
      cases gid with
      | none => rfl
      | some i =>
        by_cases hi : i = 0
        · subst hi; rfl
        · rw [orInt_some hi]; simp [hg i rfl hi]
  have hpr : printable (groupState cur.isSome (cur.map (·.gid))) f = true := by rw [← hf]; cases present <;> rfl
  refine Post.settle (i := groupState cur.isSome (cur.map (·.gid))) (f := f) ⟨hpr, rfl, rfl, rfl⟩ ?_ (Post.pure ⟨⟨⟨hpr, rfl, rfl, rfl⟩, rfl⟩, rfl⟩) ?_ ?_
  · intro _
    refine ⟨hrefl, ?_⟩
    rintro res ⟨⟩ _
    exact ⟨⟨rfl, rfl⟩, hrefl⟩
  · intro _ h; rw [heq] at h; cases h
  · intro _ h; rw [heq] at h; cases h

end
end Verif.Ops
