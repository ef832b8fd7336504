/-
Lemmas about the recorded history of variables.
-/
import Verif.Inventory.ConflictLemmas
import Verif.Inventory.Inspect
import Verif.Inventory.InspectSpec
import Verif.Inventory.NamesLemmas

namespace Verif.Inventory

theorem Plain.notOwn {x : Str} (hx : Plain x) : x ∉ hostCls.annotations ∧ x ∉ hostCls.functions ∧ x ∉ hostCls.defaults := by
  have := mt (mem_hostCls hx.isPublic).mp hx.notHostName
  simpa only [not_or] using this

theorem Plain.notMethod {x : Str} (hx : Plain x) : x ∉ wrapperMethods := mt mem_wrapperMethods.mp hx.notModuleName

theorem changes_none {order : GroupOrder} {heap : Heap} {actor : Actor} {init : Option Wrapper} {check : Bool} {x : Str} {vs : Vars} {r : Record} (h : vs.get x = none) :
    (r.changes order heap actor init check vs).history x = r.history x := by
  have := changesList_absent (order := order) (heap := heap) (actor := actor) (init := init) (check := check) (x := x) (l := vs.items) (r := r) (by
    intro hm
    obtain ⟨⟨a, u⟩, h1, rfl⟩ := List.mem_map.mp hm
    rw [Vars.mem_iff_get.mp h1] at h
    cases h)
  rw [changesList] at this
  exact this

theorem changes_some {order : GroupOrder} {heap : Heap} {actor : Actor} {init : Option Wrapper} {check : Bool} {x : Str} {v : Obj} {vs : Vars} {r : Record}
    (h : vs.get x = some v) : Recorded order heap actor init x v (r.history x) ((r.changes order heap actor init check vs).history x) r :=
  (changesList_present (check := check) vs.nodup (Vars.mem_iff_get.mpr h)).1

/-- Who acted since the last definition, given the reversed history. -/
def since : List Snapshot → List Actor → List Actor
  | [], acc => acc
  | s :: rest, acc => if s.action = .definition then s.actor :: acc else since rest (s.actor :: acc)

theorem since_acc : ∀ (l : List Snapshot) (acc : List Actor), since l acc = since l [] ++ acc
  | [], acc => rfl
  | s :: l, acc => by
    rw [since, since]
    split
    · rfl
    · rw [since_acc l (s.actor :: acc), since_acc l [s.actor], List.append_assoc]
      rfl

/-- Who acted since the last definition. -/
def origin (l : List Snapshot) : List Actor := since l.reverse []

theorem origin_concat (l : List Snapshot) (s : Snapshot) : origin (l ++ [s]) = if s.action = .definition then [s.actor] else origin l ++ [s.actor] := by
  unfold origin
  rw [List.reverse_append]
  simp only [List.reverse_cons, List.reverse_nil, List.nil_append, List.singleton_append]
  rw [since]
  split
  · rfl
  · exact since_acc _ _

/-- The content that was recorded last. -/
def lastContent (l : List Snapshot) : Nat :=
  match l.getLast? with
  | none => 0
  | some s => s.value

theorem lastContent_concat (l : List Snapshot) (s : Snapshot) : lastContent (l ++ [s]) = s.value := by
  unfold lastContent
  rw [List.getLast?_concat]

/-- What is known about the history of `x` after the stages `done`, the last of which is `s`. -/
structure TraceInv (x : Str) (done : List Stage) (s : Stage) (who : List Actor) (hist : List Snapshot) : Prop where
  value : ∀ v, s.vars.get x = some v → lastContent hist = s.heap v.id
  undefined : s.vars.get x = none → hist = []
  empty : hist = [] → (∀ t ∈ done, ∀ v, t.vars.get x = some v → t.heap v.id = 0) ∧ (done.head?.bind fun s => s.vars.get x) = none
  who : hist ≠ [] → origin hist = who

/-- `hist'` is the history after a stage that follows `s`. -/
structure Recording (x : Str) (s t : Stage) (hist hist' : List Snapshot) : Prop where
  absent : t.vars.get x = none → hist' = hist
  present : ∀ v, t.vars.get x = some v → ∀ over, over = (match s.vars.get x with | none => false | some u => u.id != v.id) →
    (over || (lastContent hist != t.heap v.id)) = false ∧ hist' = hist
    ∨ (over || (lastContent hist != t.heap v.id)) = true ∧ hist' = hist ++ [⟨actionOf (lastContent hist != t.heap v.id) over, t.actor, t.heap v.id⟩]

/-- To whom the variable is due after one more stage. -/
def dueNext (x : Str) (s t : Stage) (who : List Actor) : List Actor :=
  if (t.vars.get x).isNone then []
  else if !sameObject x s t then [t.actor]
  else if !sameContent x s t then who ++ [t.actor]
  else who

theorem TraceInv.next {x : Str} {done : List Stage} {s t : Stage} {who : List Actor} {hist hist' : List Snapshot} (h : TraceInv x done s who hist)
    (hdone : done ≠ []) (hr : Recording x s t hist hist') (hl : (s.vars.get x).isSome → (t.vars.get x).isSome)
    (hn : ∀ v, s.vars.get x = some v → t.vars.get x = some v → s.heap v.id = 0 → t.heap v.id = 0)
    (hs : ∀ v, s.vars.get x = some v → v.isModule = false) (ht : ∀ v, t.vars.get x = some v → v.isModule = false) :
    TraceInv x (done ++ [t]) t (dueNext x s t who) hist' := by
  have hhead : ∀ l : List Stage, ((done ++ l).head?.bind fun s => s.vars.get x) = (done.head?.bind fun s => s.vars.get x) := by
    intro l
    cases done with
    | nil => exact absurd rfl hdone
    | cons a b => rfl
  cases hv : t.vars.get x with
  | none =>
    have hs0 : s.vars.get x = none := by
      cases h0 : s.vars.get x with
      | none => rfl
      | some u =>
        have := hl (by rw [h0]; rfl)
        rw [hv] at this
        cases this
    have he := h.undefined hs0
    have he' := (hr.absent hv).trans he
    refine ⟨(fun v h1 => by rw [hv] at h1; cases h1), fun _ => he', fun _ => ⟨fun u hu v h1 => ?_, by rw [hhead]; exact (h.empty he).2⟩, fun h1 => absurd he' h1⟩
    rcases List.mem_append.mp hu with hu | hu
    · exact (h.empty he).1 u hu v h1
    · simp only [List.mem_singleton] at hu
      subst hu
      rw [hv] at h1
      cases h1
  | some v =>
    -- if nothing was recorded so far, and nothing is now
    have hempty : hist' = hist → lastContent hist = t.heap v.id → hist' = [] →
        (∀ u ∈ done ++ [t], ∀ w, u.vars.get x = some w → u.heap w.id = 0) ∧ ((done ++ [t]).head?.bind fun s => s.vars.get x) = none := by
      intro h1 h2 h3
      have he : hist = [] := h1.symm.trans h3
      refine ⟨fun u hu w hw => ?_, by rw [hhead]; exact (h.empty he).2⟩
      rcases List.mem_append.mp hu with hu | hu
      · exact (h.empty he).1 u hu w hw
      · simp only [List.mem_singleton] at hu
        subst hu
        rw [hv] at hw
        cases hw
        rw [← h2, he]
        rfl
    cases hu : s.vars.get x with
    | none =>
      have he := h.undefined hu
      have hobj : sameObject x s t = false := by unfold sameObject; rw [hu]
      have hdue : dueNext x s t who = [t.actor] := by unfold dueNext; rw [hv, hobj]; rfl
      rcases hr.present v hv false (by rw [hu]) with ⟨h1, h2⟩ | ⟨h1, h2⟩
      · simp only [Bool.false_or, bne_eq_false_iff_eq] at h1
        refine ⟨fun w hw => ?_, (fun h3 => by rw [hv] at h3; cases h3), fun h3 => hempty h2 h1 h3, fun h3 => absurd (h2.trans he) h3⟩
        rw [hv] at hw
        cases hw
        rw [h2]
        exact h1
      · simp only [Bool.false_or] at h1
        rw [h1] at h2
        subst h2
        refine ⟨fun w hw => ?_, (fun h3 => by rw [hv] at h3; cases h3), (fun h3 => by simp at h3), fun _ => ?_⟩
        · rw [hv] at hw
          cases hw
          rw [lastContent_concat]
        · rw [origin_concat, he, hdue]
          rfl
    | some u =>
      have hcon : sameContent x s t = (s.heap u.id == t.heap v.id) := by unfold sameContent; rw [hu, hv]
      have hobj : sameObject x s t = (u.id == v.id) := by unfold sameObject; rw [hu, hv]
      have hprev := h.value u hu
      rcases hr.present v hv (u.id != v.id) (by rw [hu]) with ⟨h1, h2⟩ | ⟨h1, h2⟩
      · simp only [Bool.or_eq_false_iff, bne_eq_false_iff_eq] at h1
        obtain ⟨h1, h1'⟩ := h1
        have hdue : dueNext x s t who = who := by
          unfold dueNext
          rw [hv, hobj, hcon, ← hprev, h1', h1]
          simp
        refine ⟨fun w hw => ?_, (fun h3 => by rw [hv] at h3; cases h3), fun h3 => hempty h2 h1' h3, fun h3 => ?_⟩
        · rw [hv] at hw
          cases hw
          rw [h2]
          exact h1'
        · rw [hdue, h2]
          exact h.who (fun h4 => h3 (h2.trans h4))
      · subst h2
        refine ⟨fun w hw => ?_, (fun h3 => by rw [hv] at h3; cases h3), (fun h3 => by simp at h3), fun _ => ?_⟩
        · rw [hv] at hw
          cases hw
          rw [lastContent_concat]
        · rw [origin_concat]
          unfold dueNext
          rw [hv, hobj, hcon]
          by_cases hid : u.id = v.id
          · have huv : u = v := by
              have h3 := hs u hu
              have h4 := ht v hv
              cases u
              cases v
              simp only at hid h3 h4
              rw [hid, h3, h4]
            subst huv
            simp only [bne_self_eq_false, Bool.false_or] at h1
            rw [h1]
            have hc : (s.heap u.id == t.heap u.id) = false := by
              rw [← hprev]
              simpa using h1
            simp only [bne_self_eq_false, actionOf, Bool.not_false, Bool.and_self, if_true, Option.isNone_some, Bool.false_eq_true, if_false, beq_self_eq_true, Bool.not_true, hc,
              reduceCtorEq]
            congr 1
            refine h.who fun he => ?_
            have h0 : s.heap u.id = 0 := by
              rw [← hprev, he]
              rfl
            have h5 := hn u hu hv h0
            rw [h0, h5] at hc
            cases hc
          · have h3 : (u.id != v.id) = true := by simpa using hid
            have h4 : (u.id == v.id) = false := by simpa using hid
            rw [h3, h4]
            simp [actionOf]

/-- The last of some stages. -/
def lastStage (s : Stage) : List Stage → Stage
  | [] => s
  | t :: rest => lastStage t rest

/-- The history after each of the stages. -/
inductive Recordings (x : Str) : Stage → List Stage → List Snapshot → List Snapshot → Prop
  | nil {s : Stage} {hist : List Snapshot} : Recordings x s [] hist hist
  | cons {s t : Stage} {rest : List Stage} {h1 h2 h3 : List Snapshot} : Recording x s t h1 h2 → Recordings x t rest h2 h3 → Recordings x s (t :: rest) h1 h3

theorem TraceInv.all {x : Str} {s : Stage} {rest : List Stage} {hist hist' : List Snapshot} (hr : Recordings x s rest hist hist') :
    ∀ {done : List Stage} {who : List Actor}, done ≠ [] → TraceInv x done s who hist → (∀ t ∈ s :: rest, ∀ v, t.vars.get x = some v → v.isModule = false) →
    ((s :: rest).Pairwise fun s t => (s.vars.get x).isSome → (t.vars.get x).isSome) →
    ((s :: rest).Pairwise fun s t => ∀ v, s.vars.get x = some v → t.vars.get x = some v → s.heap v.id = 0 → t.heap v.id = 0) →
    TraceInv x (done ++ rest) (lastStage s rest) (dueTo x s who rest) hist' := by
  induction hr with
  | nil =>
    intro done who _ h _ _ _
    rw [List.append_nil]
    exact h
  | @cons s t rest h1 h2 h3 hrec _ ih =>
    intro done who hdone h hm hl hn
    have := h.next hdone hrec ((List.pairwise_cons.mp hl).1 t (by simp)) ((List.pairwise_cons.mp hn).1 t (by simp)) (hm s (by simp)) (hm t (by simp))
    have := ih (by simp) this (fun u hu => hm u (by simp [hu])) (List.pairwise_cons.mp hl).2 (List.pairwise_cons.mp hn).2
    rw [List.append_assoc] at this
    exact this

/-- The wrapper passes on these variables. -/
def Passes (w : Wrapper) (vs : Vars) : Prop :=
  ∀ x, Plain x → w.exported.get x = ((vs.get x).filter fun v => !v.isModule) ∧ w.get x = vs.get x

theorem Passes.group {w : Wrapper} {vs : Vars} (h : GroupWrapped w vs) : Passes w vs := by
  intro x hx
  refine ⟨h.exported hx.toVariable, ?_⟩
  rw [Wrapper.get_public hx.isPublic, h.vars hx.toVariable]
  unfold Wrapper.ofClass
  rw [h.cls, if_neg (by simp [groupCls, hx.notMethod]), Option.or_none]

theorem Passes.early {c : Consts} {vars : Vars} : Passes (earlyExplicits c vars) vars := by
  intro x hx
  constructor
  · rw [early_exported hx.toVariable, if_neg hx.notHost, Option.or_none]
  · rw [Wrapper.get_public hx.isPublic, Wrapper.get_vars (m := { obj := { id := c.explicits }, attrs := vars }) rfl, Wrapper.get_dict hx.notModule]
    unfold Wrapper.ofClass earlyExplicits
    rw [if_neg (by simp [groupCls, hx.notMethod])]
    simp only [Vars.get_set, if_neg hx.notName, if_neg hx.notHost, Vars.get_empty, Option.or_none]

theorem lastContent_previous (r : Record) (x : Str) : r.previous x = lastContent (r.history x) := rfl

/-- What is recorded for the variables that a module leaves. -/
theorem recording_changes {order : GroupOrder} {actor : Actor} {init : Wrapper} {check : Bool} {x : Str} {vs : Vars} {r : Record} {s : Stage} {heap' : Heap} {vs' : Vars}
    (hi : init.get x = s.vars.get x) (hv : vs.get x = vs'.get x) :
    Recording x s ⟨actor, heap', vs'⟩ (r.history x) ((r.changes order heap' actor (some init) check vs).history x) := by
  refine ⟨fun h => changes_none (hv.trans h), fun v h over hover => ?_⟩
  have hr := changes_some (order := order) (heap := heap') (actor := actor) (init := some init) (check := check) (r := r) (hv.trans h)
  have ho : wasOverwritten (some init) x v = over := by
    rw [hover]
    unfold wasOverwritten
    simp only [hi]
    cases s.vars.get x <;> rfl
  have hm : r.wasModified heap' x v = (lastContent (r.history x) != heap' v.id) := rfl
  have hc : ((some init).isNone || wasOverwritten (some init) x v || r.wasModified heap' x v) = (over || (lastContent (r.history x) != heap' v.id)) := by
    rw [ho, hm]
    rfl
  cases hb : (over || (lastContent (r.history x) != heap' v.id)) with
  | false => exact .inl ⟨rfl, hr.no (by rw [hc, hb]; simp)⟩
  | true =>
    refine .inr ⟨rfl, ?_⟩
    have := hr.yes (by rw [hc, hb])
    rw [ho, hm] at this
    exact this

theorem loadGroups_course {src : Sources} {c : Consts} {d : Declared} (hd : ∀ g gd, (g, gd) ∈ d.groups → gd.name = g) :
    ∀ {gs : List Str} {l l' : Loading} {s : Stage}, loadGroups src c d l gs = .ok l' → s.heap = l.heap → Passes l.initializer s.vars →
    ∃ stages, (∀ rest more, Course src c l'.heap (lastStage s stages).vars rest more →
        Course src c l.heap s.vars (gs.map (fun g => (Actor.group g, groupModule src d g)) ++ rest) (stages ++ more))
      ∧ (lastStage s stages).heap = l'.heap ∧ Passes l'.initializer (lastStage s stages).vars
      ∧ ∀ x, Plain x → (∀ t ∈ s :: stages, ∀ v, t.vars.get x = some v → v.isModule = false) → Recordings x s stages (l.record.history x) (l'.record.history x)
  | [], l, l', s, h, hh, hp => by
    cases h
    exact ⟨[], fun rest more hc => hc, hh, hp, fun x _ _ => .nil⟩
  | g :: gs, l, l', s, h, hh, hp => by
    obtain ⟨m, h1, h2⟩ := loadGroups_cons h
    obtain ⟨gd, h3, h4, h5⟩ := loadNext_ok h1
    obtain ⟨vs, vs', h6, h7, h8⟩ := loadGroup_ok h4
    have hn := hd g gd (lookup_mem h3)
    rw [hn] at h6 h8
    obtain ⟨stages, k1, k2, k3, k4⟩ := loadGroups_course hd (s := ⟨.group g, m.heap, vs'⟩) h2 rfl (Passes.group h7)
    refine ⟨⟨.group g, m.heap, vs'⟩ :: stages, fun rest more hc => ?_, k2, k3, fun x hx hm => ?_⟩
    · refine .cons (vs := vs) (fun x hx => ?_) ?_ (k1 rest more hc)
      · rw [h8 x hx.toVariable, (hp x hx).1, allVars_get]
        unfold inherited
        congr 1
        simp only [Actor.group.injEq]
      · have : groupModule src d g = bodyOf src (src.groupFile g) gd.file := by
          unfold groupModule
          rw [h3]
          rfl
        rw [this]
        exact h6
    · refine .cons (h2 := m.record.history x) ?_ (k4 x hx fun t ht => hm t (by simp only [List.mem_cons] at ht ⊢; exact .inr ht))
      rw [h5]
      refine recording_changes (hp x hx).2 ?_
      rw [h7.exported hx.toVariable]
      cases hg : vs'.get x with
      | none => rfl
      | some v =>
        have := hm ⟨.group g, m.heap, vs'⟩ (by simp) v hg
        simp [Option.filter, this]

theorem instanciateHost_history {src : Sources} {c : Consts} {d : Declared} {heap heap' : Heap} {name : Str} {decl : HostDecl} {h : Host}
    (hi : instanciateHost src c d heap name decl = .ok (heap', h)) :
    ∃ l, loadGroups src c d ⟨heap, earlyExplicits c (declVars decl), earlyRecord d.order heap c (declVars decl)⟩ (groupsInOrder d decl) = .ok l
      ∧ loadHost src c name decl l.initializer l.heap = .ok (heap', h.wrapper)
      ∧ h.history = (l.record.changes d.order heap' (.host name) (some l.initializer) false h.wrapper.exported).history := by
  unfold instanciateHost at hi
  simp only [bind, Except.bind] at hi
  split at hi
  · cases hi
  · next l hl =>
    refine ⟨l, hl, ?_⟩
    split at hi
    · cases hi
    · split at hi
      · cases hi
      · next r hr =>
        obtain ⟨h1, w⟩ := r
        cases hi
        exact ⟨hr, rfl⟩

theorem lastStage_concat (s t : Stage) : ∀ (l : List Stage), lastStage s (l ++ [t]) = t
  | [] => rfl
  | _ :: l => lastStage_concat _ t l

theorem Recordings.concat {x : Str} {s t : Stage} {l : List Stage} {h1 h2 h3 : List Snapshot} (hr : Recordings x s l h1 h2) (ht : Recording x (lastStage s l) t h2 h3) :
    Recordings x s (l ++ [t]) h1 h3 := by
  induction hr with
  | nil => exact .cons ht .nil
  | cons k1 _ ih => exact .cons k1 (ih ht)

/-- The wrapper of a host and its module. -/
theorem host_vars {w : Wrapper} {m : Mod} {c : Consts} {name x : Str} (hm : w.module = some m) (ha : w.attrs = hostFields c name) (hx : Plain x) :
    w.vars.get x = m.attrs.get x := by
  have hf : (hostFields c name).get x = none := by
    have : ∀ (l : List Str) (d : Vars), x ∉ l → (l.foldl (fun d a => d.set a (c.field name a)) d).get x = d.get x := by
      intro l
      induction l with
      | nil => intro d _; rfl
      | cons a l ih =>
        intro d h
        simp only [List.mem_cons, not_or] at h
        rw [List.foldl_cons, ih _ h.2, Vars.get_set, if_neg h.1]
    unfold hostFields
    rw [this _ _ hx.notOwn.1]
    rfl
  rw [Wrapper.get_vars hm, Wrapper.get_dict hx.notModule, ha, hf, Option.or_none]

theorem hostCls_exported {x : Str} (hx : Plain x) (v : Obj) : hostCls.isExported x v = !v.isModule := by
  unfold Cls.isExported
  obtain ⟨h1, h2, h3⟩ := hx.notOwn
  rw [hx.isPublic]
  simp [h1, h2, h3]

/-- The history of a variable. -/
theorem history_course {src : Sources} {c : Consts} {d : Declared} {heap heap' : Heap} {name : Str} {decl : HostDecl} {h : Host}
    (hd : ∀ g gd, (g, gd) ∈ d.groups → gd.name = g) (hi : instanciateHost src c d heap name decl = .ok (heap', h)) :
    ∃ rest last, lastStage ⟨.group p!"early-explicits", heap, declVars decl⟩ rest = last ∧ last.heap = heap' ∧ (∀ x, Plain x → h.wrapper.vars.get x = last.vars.get x)
      ∧ Course src c heap (declVars decl) (loads src d name decl) rest
      ∧ ∀ x, Plain x → (∀ t ∈ ⟨.group p!"early-explicits", heap, declVars decl⟩ :: rest, ∀ v, t.vars.get x = some v → v.isModule = false) →
        Recordings x ⟨.group p!"early-explicits", heap, declVars decl⟩ rest ((earlyRecord d.order heap c (declVars decl)).history x) (h.history x) := by
  obtain ⟨l, h1, h2, h3⟩ := instanciateHost_history hi
  obtain ⟨stages, k1, k2, k3, k4⟩ := loadGroups_course hd (s := ⟨.group p!"early-explicits", heap, declVars decl⟩) h1 rfl Passes.early
  obtain ⟨g, g', m, j1, j2, j3, j4, j5, j6, j7⟩ := loadHost_ok h2
  have hex : ∀ x, Plain x → h.wrapper.exported.get x = (g'.get x).filter fun v => !v.isModule := by
    intro x hx
    unfold Wrapper.exported
    rw [Vars.get_filter, host_vars j3 j5 hx, j2, j4]
    congr 1
    funext v
    exact hostCls_exported hx v
  refine ⟨stages ++ [⟨.host name, heap', g'⟩], _, lastStage_concat _ _ _, rfl, fun x hx => by rw [host_vars j3 j5 hx, j4], ?_, fun x hx hm => ?_⟩
  · refine k1 _ _ (.cons (vs := g) (fun x hx => ?_) j1 .nil)
    rw [j7 x hx.notOwn.1 hx.notOwn.2.1, (k3 x hx).1]
    unfold inherited
    simp
  · refine (k4 x hx fun t ht => hm t ?_).concat ?_
    · simp only [List.mem_cons, List.mem_append] at ht ⊢
      rcases ht with ht | ht
      · exact .inl ht
      · exact .inr (.inl ht)
    · rw [h3]
      refine recording_changes (k3 x hx).2 ?_
      rw [hex x hx]
      cases hg : g'.get x with
      | none => rfl
      | some v =>
        have := hm ⟨.host name, heap', g'⟩ (by simp) v hg
        simp [Option.filter, this]

theorem traceInv_early {order : GroupOrder} {c : Consts} {heap : Heap} {vars : Vars} {x : Str} (hx : Plain x) :
    TraceInv x [⟨.group p!"early-explicits", heap, vars⟩] ⟨.group p!"early-explicits", heap, vars⟩
      (if (vars.get x).isNone then [] else [.group p!"early-explicits"]) ((earlyRecord order heap c vars).history x) := by
  have h0 : (({} : Record).change order heap (.group p!"early-explicits") none true p!"host" c.declaration).history x = [] := by
    rw [Record.change_history hx.notHost]
  unfold earlyRecord
  cases hv : vars.get x with
  | none =>
    rw [changes_none hv, h0]
    refine ⟨fun v h => ?_, fun _ => rfl, fun _ => ⟨fun t ht v h => ?_, hv⟩, fun h => absurd rfl h⟩
    · simp only [hv] at h
      cases h
    · simp only [List.mem_singleton] at ht
      subst ht
      simp only [hv] at h
      cases h
  | some v =>
    have hr := (changes_some (order := order) (heap := heap) (actor := .group p!"early-explicits") (init := none) (check := true)
      (r := ({} : Record).change order heap (.group p!"early-explicits") none true p!"host" c.declaration) hv).yes rfl
    rw [h0, List.nil_append] at hr
    rw [hr]
    refine ⟨fun w h => ?_, fun h => ?_, (fun h => by simp at h), fun _ => ?_⟩
    · simp only [hv] at h
      cases h
      rfl
    · simp only [hv] at h
      cases h
    · unfold origin
      simp only [List.reverse_cons, List.reverse_nil, List.nil_append, since]
      split <;> rfl

/-! ### The table -/

theorem change_actors {order : GroupOrder} {heap : Heap} {actor : Actor} {init : Option Wrapper} {check : Bool} {r : Record} {a b : Str} {v : Obj} {s : Snapshot}
    (h : s ∈ (r.change order heap actor init check a v).history b) : s ∈ r.history b ∨ s.actor = actor := by
  unfold Record.change at h
  simp only at h
  split at h
  · simp only at h
    split at h
    · next e =>
      subst e
      rcases List.mem_append.mp h with h | h
      · exact .inl h
      · rw [List.mem_singleton.mp h]
        exact .inr rfl
    · exact .inl h
  · exact .inl h

theorem changes_actors {order : GroupOrder} {heap : Heap} {actor : Actor} {init : Option Wrapper} {check : Bool} {b : Str} {s : Snapshot} {vs : Vars} {r : Record}
    (h : s ∈ (r.changes order heap actor init check vs).history b) : s ∈ r.history b ∨ s.actor = actor := by
  have : ∀ (l : List (Str × Obj)) (r : Record), s ∈ (l.foldl (fun r kv => r.change order heap actor init check kv.1 kv.2) r).history b → s ∈ r.history b ∨ s.actor = actor := by
    intro l
    induction l with
    | nil => intro r h; exact .inl h
    | cons kv l ih =>
      intro r h
      rcases ih _ h with h | h
      · exact change_actors h
      · exact .inr h
  exact this _ _ h

theorem loadGroups_actors {src : Sources} {c : Consts} {d : Declared} {b : Str} {s : Snapshot} : ∀ {gs : List Str} {l l' : Loading}, loadGroups src c d l gs = .ok l' →
    s ∈ l'.record.history b → s ∈ l.record.history b ∨ ∃ g ∈ gs, s.actor = .group g
  | [], l, l', h, hs => by cases h; exact .inl hs
  | g :: gs, l, l', h, hs => by
    obtain ⟨m, h1, h2⟩ := loadGroups_cons h
    obtain ⟨_, _, _, h3⟩ := loadNext_ok h1
    rcases loadGroups_actors h2 hs with h4 | ⟨g', h4, h5⟩
    · rw [h3] at h4
      rcases changes_actors h4 with h4 | h4
      · exact .inl h4
      · exact .inr ⟨g, by simp, h4⟩
    · exact .inr ⟨g', by simp [h4], h5⟩

/-- Who may be in the history of a variable. -/
theorem history_actors {src : Sources} {c : Consts} {d : Declared} {heap heap' : Heap} {name : Str} {decl : HostDecl} {h : Host}
    (hi : instanciateHost src c d heap name decl = .ok (heap', h)) {b : Str} {s : Snapshot} (hs : s ∈ h.history b) :
    s.actor = .host name ∨ s.actor = .group p!"early-explicits" ∨ ∃ g ∈ d.order.order, s.actor = .group g := by
  obtain ⟨l, h1, _, h3⟩ := instanciateHost_history hi
  rw [h3] at hs
  rcases changes_actors hs with hs | hs
  · rcases loadGroups_actors h1 hs with hs | ⟨g, hg, hs⟩
    · simp only [earlyRecord] at hs
      rcases changes_actors hs with hs | hs
      · rcases change_actors hs with hs | hs
        · simp at hs
        · exact .inr (.inl hs)
      · exact .inr (.inl hs)
    · exact .inr (.inr ⟨g, (List.mem_filter.mp hg).1, hs⟩)
  · exact .inl hs

theorem precedence_ok {order : List Str} {a : Actor} (h : ∀ g, a = .group g → g ∈ order) : ∃ p, precedence order a = .ok p ∧ Position order (p, a) := by
  cases a with
  | host n => exact ⟨_, rfl, rfl⟩
  | group g =>
    have := List.isSome_idxOf?.mpr (h g rfl)
    unfold precedence Position
    cases hi : order.idxOf? g with
    | none => rw [hi] at this; cases this
    | some i =>
      refine ⟨i, by simp only [hi], ?_⟩
      obtain ⟨h1, h2, _⟩ := List.idxOf?_eq_some_iff.mp hi
      rw [← h2]
      exact List.getElem?_eq_getElem h1

theorem definedBy_ok {order : List Str} : ∀ {l : List Snapshot} {acc : List (Nat × Actor)}, (∀ s ∈ l, ∀ g, s.actor = .group g → g ∈ order) → (∀ p ∈ acc, Position order p) →
    ∃ r, definedBy order l acc = .ok r ∧ r.map (·.2) = since l (acc.map (·.2)) ∧ ∀ p ∈ r, Position order p
  | [], acc, _, ha => ⟨acc, rfl, rfl, ha⟩
  | s :: l, acc, h, ha => by
    obtain ⟨p, h1, h2⟩ := precedence_ok (h s (by simp))
    have ha' : ∀ q ∈ (p, s.actor) :: acc, Position order q := by
      intro q hq
      rcases List.mem_cons.mp hq with rfl | hq
      · exact h2
      · exact ha q hq
    rw [definedBy, since]
    simp only [h1, bind, Except.bind]
    split
    · exact ⟨_, rfl, rfl, ha'⟩
    · exact definedBy_ok (fun s' hs => h s' (by simp [hs])) ha'

theorem since_last : ∀ (l : List Snapshot) (acc : List Actor) (a : Actor), (since l (acc ++ [a])).getLast? = some a
  | [], acc, a => by simp [since]
  | s :: l, acc, a => by
    rw [since]
    split
    · rw [show s.actor :: (acc ++ [a]) = (s.actor :: acc) ++ [a] from rfl, List.getLast?_concat]
    · exact since_last l (s.actor :: acc) a

theorem shownHistory_ne (host : Str) (h : Host) (a : Str) : shownHistory host h a ≠ [] := by
  unfold shownHistory
  split
  · simp
  · next h1 => exact fun h2 => h1 h2

/-- The last one who is shown is the last one who acted. -/
theorem origin_last (host : Str) (h : Host) (a : Str) : (origin (shownHistory host h a)).getLast? = some (lastActor host h a) := by
  unfold lastActor origin
  rcases List.eq_nil_or_concat (shownHistory host h a) with he | ⟨l, s, he⟩
  · exact absurd he (shownHistory_ne host h a)
  · rw [he, List.concat_eq_append] at *
    simp only [List.reverse_append, List.reverse_cons, List.reverse_nil, List.nil_append, List.singleton_append, List.getLast?_concat]
    rw [since]
    split
    · rfl
    · exact since_last _ [] _

/-- What a row shows. -/
structure RowFor (order : List Str) (host : Str) (h : Host) (a : Str) (v : Obj) (r : Row) : Prop where
  attr : r.attr = a
  value : r.value = v
  declared : r.declared = declaredByWrapper a
  who : r.definedBy.map (·.2) = origin (shownHistory host h a)
  position : ∀ p ∈ r.definedBy, Position order p
  last : (r.definedBy.getLast?).map (·.1) = some r.last

theorem position_unique {order : List Str} (hn : order.Nodup) {p q : Nat} {a : Actor} (hp : Position order (p, a)) (hq : Position order (q, a)) : p = q := by
  cases a with
  | host n => exact hp.trans hq.symm
  | group g =>
    unfold Position at hp hq
    simp only at hp hq
    obtain ⟨h1, h2⟩ := List.getElem?_eq_some_iff.mp hp
    exact (List.getElem?_inj h1 hn).mp (hp.trans hq.symm)

theorem rowOf_ok {order : List Str} {host : Str} {h : Host} {a : Str} {v : Obj} (hn : order.Nodup) (hh : ∀ s ∈ shownHistory host h a, ∀ g, s.actor = .group g → g ∈ order) :
    ∃ r, rowOf order host h a v = .ok r ∧ RowFor order host h a v r := by
  have hlast : ∀ g, lastActor host h a = .group g → g ∈ order := by
    intro g hg
    unfold lastActor at hg
    cases hl : (shownHistory host h a).getLast? with
    | none => rw [hl] at hg; cases hg
    | some s => rw [hl] at hg; exact hh s (List.mem_of_getLast? hl) g hg
  obtain ⟨p, h1, h1'⟩ := precedence_ok hlast
  obtain ⟨r, h2, h3, h4⟩ := definedBy_ok (order := order) (l := (shownHistory host h a).reverse) (acc := []) (fun s hs => hh s (List.mem_reverse.mp hs)) (by simp)
  unfold rowOf
  simp only [h1, h2, bind, Except.bind]
  refine ⟨_, rfl, rfl, rfl, rfl, h3, h4, ?_⟩
  have := origin_last host h a
  unfold origin at this
  rw [← show r.map (·.2) = since (shownHistory host h a).reverse [] from h3, List.getLast?_map] at this
  obtain ⟨q, hq1, hq2⟩ := Option.map_eq_some_iff.mp this
  have hq3 := h4 q (List.mem_of_getLast? hq1)
  simp only
  rw [hq1]
  simp only [Option.map_some, Option.some.injEq]
  obtain ⟨q1, q2⟩ := q
  simp only at hq2
  subst hq2
  exact position_unique hn hq3 h1'

theorem rowsOf_ok {order : List Str} {host : Str} {h : Host} (hn : order.Nodup) (hh : ∀ a, ∀ s ∈ shownHistory host h a, ∀ g, s.actor = .group g → g ∈ order) :
    ∀ (l : List (Str × Obj)), ∃ rs, rowsOf order host h l = .ok rs ∧ rs.map (fun r => (r.attr, r.value)) = l ∧ ∀ r ∈ rs, RowFor order host h r.attr r.value r
  | [] => ⟨[], rfl, rfl, by simp⟩
  | (a, v) :: l => by
    obtain ⟨r, h1, h2⟩ := rowOf_ok (v := v) hn (hh a)
    obtain ⟨rs, h3, h4, h5⟩ := rowsOf_ok hn hh l
    rw [rowsOf]
    simp only [h1, h3, bind, Except.bind]
    refine ⟨_, rfl, by rw [List.map_cons, h4, h2.attr, h2.value], fun r' hr => ?_⟩
    rcases List.mem_cons.mp hr with rfl | hr
    · rw [h2.attr, h2.value]
      exact h2
    · exact h5 r' hr

theorem strLe_iff : ∀ {a b : Str}, strLe a b = true ↔ a < b ∨ a = b
  | [], [] => by simp [strLe]
  | [], b :: bs => by simp [strLe]
  | a :: as, [] => by simp [strLe]
  | a :: as, b :: bs => by
    rw [strLe, List.cons_lt_cons_iff]
    split
    · next e =>
      subst e
      rw [strLe_iff]
      simp
    · next e => simp [e]

theorem strLe_total : ∀ (a b : Str), (strLe a b || strLe b a) = true
  | [], _ => by simp [strLe]
  | a :: as, [] => by simp [strLe]
  | a :: as, b :: bs => by
    rw [strLe, strLe]
    by_cases e : a = b
    · subst e
      simpa using strLe_total as bs
    · rw [if_neg e, if_neg (fun h => e h.symm)]
      simp only [Bool.or_eq_true, decide_eq_true_eq]
      omega

theorem strLe_trans : ∀ {a b c : Str}, strLe a b = true → strLe b c = true → strLe a c = true
  | [], _, _, _, _ => by simp [strLe]
  | a :: as, [], _, h, _ => by simp [strLe] at h
  | a :: as, b :: bs, [], _, h => by simp [strLe] at h
  | a :: as, b :: bs, c :: cs, h1, h2 => by
    rw [strLe] at h1 h2 ⊢
    by_cases e1 : a = b
    · subst e1
      rw [if_pos rfl] at h1
      by_cases e2 : a = c
      · subst e2
        rw [if_pos rfl] at h2 ⊢
        exact strLe_trans h1 h2
      · rw [if_neg e2] at h2 ⊢
        exact h2
    · rw [if_neg e1, decide_eq_true_eq] at h1
      by_cases e2 : b = c
      · subst e2
        rw [if_neg e1, decide_eq_true_eq]
        exact h1
      · rw [if_neg e2, decide_eq_true_eq] at h2
        rw [if_neg (by omega), decide_eq_true_eq]
        omega

theorem rowLe_total (r s : Row) : (rowLe r s || rowLe s r) = true := by
  unfold rowLe
  by_cases h1 : r.declared = s.declared
  · rw [if_pos h1, if_pos h1.symm]
    by_cases h2 : r.last = s.last
    · rw [if_pos h2, if_pos h2.symm]
      exact strLe_total _ _
    · rw [if_neg h2, if_neg (fun h => h2 h.symm)]
      simp only [Bool.or_eq_true, decide_eq_true_eq]
      omega
  · rw [if_neg h1, if_neg (fun h => h1 h.symm)]
    cases hr : r.declared <;> cases hs : s.declared <;> simp_all

theorem rowLe_trans (r s t : Row) (h1 : rowLe r s = true) (h2 : rowLe s t = true) : rowLe r t = true := by
  unfold rowLe at *
  by_cases e1 : r.declared = s.declared
  · rw [if_pos e1] at h1
    by_cases e2 : s.declared = t.declared
    · rw [if_pos e2] at h2
      rw [if_pos (e1.trans e2)]
      by_cases e3 : r.last = s.last
      · rw [if_pos e3] at h1
        by_cases e4 : s.last = t.last
        · rw [if_pos e4] at h2
          rw [if_pos (e3.trans e4)]
          exact strLe_trans h1 h2
        · rw [if_neg e4] at h2
          rw [if_neg (by omega), e3]
          exact h2
      · rw [if_neg e3, decide_eq_true_eq] at h1
        by_cases e4 : s.last = t.last
        · rw [← e4, if_neg e3, decide_eq_true_eq]
          exact h1
        · rw [if_neg e4, decide_eq_true_eq] at h2
          rw [if_neg (by omega), decide_eq_true_eq]
          omega
    · rw [if_neg e2] at h2
      rw [if_neg (by rw [e1]; exact e2), e1]
      exact h2
  · rw [if_neg e1] at h1
    by_cases e2 : s.declared = t.declared
    · rw [← e2, if_neg e1]
      exact h1
    · rw [if_neg e2] at h2
      exact absurd (h1.trans h2.symm) e1

theorem insertRow_perm (r : Row) : ∀ (l : List Row), (insertRow r l).Perm (r :: l)
  | [] => .refl _
  | s :: l => by
    rw [insertRow]
    split
    · exact .refl _
    · exact ((insertRow_perm r l).cons s).trans (.swap r s l)

theorem insertRow_sorted (r : Row) : ∀ {l : List Row}, (l.Pairwise fun r s => rowLe r s = true) → ((insertRow r l).Pairwise fun r s => rowLe r s = true)
  | [], _ => by simp [insertRow]
  | s :: l, h => by
    obtain ⟨h1, h2⟩ := List.pairwise_cons.mp h
    rw [insertRow]
    split
    · next e =>
      refine List.pairwise_cons.mpr ⟨fun t ht => ?_, h⟩
      rcases List.mem_cons.mp ht with rfl | ht
      · exact e
      · exact rowLe_trans _ _ _ e (h1 t ht)
    · next e =>
      refine List.pairwise_cons.mpr ⟨fun t ht => ?_, insertRow_sorted r h2⟩
      rcases List.mem_cons.mp ((insertRow_perm r l).mem_iff.mp ht) with rfl | ht
      · have := rowLe_total t s
        simpa [e] using this
      · exact h1 t ht

theorem sortRows_perm : ∀ (l : List Row), (sortRows l).Perm l
  | [] => .refl _
  | r :: l => (insertRow_perm r _).trans ((sortRows_perm l).cons r)

theorem sortRows_sorted : ∀ (l : List Row), (sortRows l).Pairwise fun r s => rowLe r s = true
  | [] => .nil
  | r :: l => insertRow_sorted r (sortRows_sorted l)

end Verif.Inventory
