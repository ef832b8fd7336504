/-
C87: `fora --init`.
-/
import Verif.Run.InitSpec
import Verif.Run.CmdlineProps

namespace Verif.Run.Init

theorem Disk.get_set {d : Disk} {p q : Path} {n : Node} (hp : p ≠ []) : (d.set p n).get q = if q = p then some n else d.get q := by
  unfold Disk.get Disk.set
  by_cases h : q = p
  · subst h
    simp [hp]
  · simp only [List.find?_cons, if_neg h]
    have : decide (p = q) = false := by simpa using Ne.symm h
    rw [this]

theorem Keeps.refl (d : Disk) : Keeps d d := fun _ => ⟨id, id, fun c h => ⟨c, h⟩⟩

theorem Keeps.trans {a b c : Disk} (h1 : Keeps a b) (h2 : Keeps b c) : Keeps a c := fun p =>
  ⟨fun h => (h2 p).1 ((h1 p).1 h), fun h => (h2 p).2.1 ((h1 p).2.1 h), fun x h => by
    obtain ⟨y, hy⟩ := (h1 p).2.2 x h
    exact (h2 p).2.2 y hy⟩

theorem execAll_append (fault : Nat → Option Exn) : ∀ (a b : List Step) (n : Nat) (d : Disk),
    execAll fault n (a ++ b) d = match execAll fault n a d with
      | (d', none) => execAll fault (n + a.length) b d'
      | (d', some e) => (d', some e)
  | [], b, n, d => rfl
  | s :: a, b, n, d => by
    simp only [List.cons_append, execAll]
    cases fault n with
    | some e => rfl
    | none =>
      cases s.exec d with
      | error e => rfl
      | ok d' =>
        simp only
        rw [execAll_append fault a b (n + 1) d', List.length_cons, show n + 1 + a.length = n + (a.length + 1) by omega]

theorem mkdir_step {p : Path} (hp : p ≠ []) {d d' : Disk} (h : (Step.mkdir p).exec d = .ok d') :
    (d.get p = none ∨ d.get p = some .dir) ∧ ∀ q, d'.get q = if q = p then some .dir else d.get q := by
  simp only [Step.exec] at h
  split at h
  · cases h
  · cases hg : d.get p with
    | none =>
      rw [hg] at h
      cases h
      exact ⟨.inl rfl, fun q => Disk.get_set hp⟩
    | some n =>
      rw [hg] at h
      cases n with
      | dir =>
        cases h
        refine ⟨.inr rfl, fun q => ?_⟩
        split
        · next e => rw [e, hg]
        · rfl
      | file c => cases h
      | blocked => cases h

theorem truncate_step {p : Path} (hp : p ≠ []) {d d' : Disk} (h : (Step.truncate p).exec d = .ok d') :
    (d.get p = none ∨ ∃ c, d.get p = some (.file c)) ∧ ∀ q, d'.get q = if q = p then some (.file []) else d.get q := by
  simp only [Step.exec] at h
  split at h
  · cases h
  · cases hg : d.get p with
    | none =>
      rw [hg] at h
      cases h
      exact ⟨.inl rfl, fun q => Disk.get_set hp⟩
    | some n =>
      rw [hg] at h
      cases n with
      | dir => cases h
      | file c =>
        cases h
        exact ⟨.inr ⟨c, rfl⟩, fun q => Disk.get_set hp⟩
      | blocked => cases h

theorem keeps_dir {p : Path} {d d' : Disk} (h1 : d.get p = none ∨ d.get p = some .dir) (h2 : ∀ q, d'.get q = if q = p then some .dir else d.get q) : Keeps d d' := by
  intro q
  rw [h2 q]
  by_cases h : q = p
  · subst h
    rw [if_pos rfl]
    refine ⟨fun _ => rfl, fun h => ?_, fun c h => ?_⟩ <;> rcases h1 with h1 | h1 <;> rw [h1] at h <;> cases h
  · rw [if_neg h]
    exact ⟨id, id, fun c h => ⟨c, h⟩⟩

theorem keeps_file {p : Path} {c : Str} {d d' : Disk} (h1 : d.get p = none ∨ ∃ c, d.get p = some (.file c)) (h2 : ∀ q, d'.get q = if q = p then some (.file c) else d.get q) :
    Keeps d d' := by
  intro q
  rw [h2 q]
  by_cases h : q = p
  · subst h
    rw [if_pos rfl]
    refine ⟨fun h => ?_, fun h => ?_, fun c h => ⟨_, rfl⟩⟩ <;> rcases h1 with h1 | ⟨x, h1⟩ <;> rw [h1] at h <;> cases h
  · rw [if_neg h]
    exact ⟨id, id, fun c h => ⟨c, h⟩⟩

/-- The effect of creating directories. -/
theorem mkdirs_effect (fault : Nat → Option Exn) : ∀ (dirs : List Path) (n : Nat) (d d' : Disk) (r : Option Exn), (∀ p ∈ dirs, p ≠ []) →
    execAll fault n (dirs.map .mkdir) d = (d', r) →
    Keeps d d' ∧ (∀ p, p ∉ dirs → d'.get p = d.get p) ∧ (∀ p ∈ dirs, d'.get p = d.get p ∨ d.get p = none ∧ d'.get p = some .dir)
      ∧ (r = none → ∀ p ∈ dirs, d'.get p = some .dir)
  | [], n, d, d', r, _, h => by
    cases h
    exact ⟨.refl _, fun _ _ => rfl, nofun, nofun⟩
  | p :: dirs, n, d, d', r, hne, h => by
    simp only [List.map_cons, execAll] at h
    have stop : ∀ e : Exn, (d, some e) = (d', r) → Keeps d d' ∧ (∀ q, q ∉ p :: dirs → d'.get q = d.get q)
        ∧ (∀ q ∈ p :: dirs, d'.get q = d.get q ∨ d.get q = none ∧ d'.get q = some .dir) ∧ (r = none → ∀ q ∈ p :: dirs, d'.get q = some .dir) := by
      intro e h
      cases h
      exact ⟨.refl _, fun _ _ => rfl, fun _ _ => .inl rfl, nofun⟩
    cases hf : fault n with
    | some e =>
      rw [hf] at h
      exact stop e h
    | none =>
      rw [hf] at h
      cases hs : (Step.mkdir p).exec d with
      | error e =>
        rw [hs] at h
        exact stop e h
      | ok d1 =>
        rw [hs] at h
        obtain ⟨h1, h2⟩ := mkdir_step (hne p (by simp)) hs
        obtain ⟨i1, i2, i3, i4⟩ := mkdirs_effect fault dirs (n + 1) d1 d' r (fun q hq => hne q (by simp [hq])) h
        have hd1 : d1.get p = some .dir := by rw [h2, if_pos rfl]
        refine ⟨(keeps_dir h1 h2).trans i1, fun q hq => ?_, fun q hq => ?_, fun hr q hq => ?_⟩
        · rw [i2 q (fun h => hq (by simp [h])), h2 q, if_neg (fun e => hq (by simp [e]))]
        · by_cases e : q = p
          · subst e
            rcases h1 with h1 | h1
            · exact .inr ⟨h1, (i1 q).1 hd1⟩
            · exact .inl (by rw [h1]; exact (i1 q).1 hd1)
          · have hq' : q ∈ dirs := by
              rcases List.mem_cons.mp hq with h | h
              · exact absurd h e
              · exact h
            have := i3 q hq'
            rw [h2 q, if_neg e] at this
            exact this
        · rcases List.mem_cons.mp hq with rfl | hq
          · exact (i1 q).1 hd1
          · exact i4 hr q hq

/-- The effect of writing files. -/
theorem writes_effect (fault : Nat → Option Exn) (content : Path → Str) : ∀ (files : List Path) (n : Nat) (d d' : Disk) (r : Option Exn), (∀ p ∈ files, p ≠ []) →
    execAll fault n (files.flatMap fun p => [.truncate p, .write p (content p)]) d = (d', r) →
    Keeps d d' ∧ (∀ p, p ∉ files → d'.get p = d.get p)
      ∧ (∀ p ∈ files, d'.get p = d.get p ∨ (∃ c, d'.get p = some (.file c)) ∧ (d.get p = none ∨ ∃ c, d.get p = some (.file c)))
      ∧ (r = none → (∀ p ∈ files, d'.get p = some (.file (content p))) ∧ ∀ p ∈ files, d.get p = none ∨ ∃ c, d.get p = some (.file c))
  | [], n, d, d', r, _, h => by
    cases h
    exact ⟨.refl _, fun _ _ => rfl, nofun, fun _ => ⟨nofun, nofun⟩⟩
  | p :: files, n, d, d', r, hne, h => by
    have hp := hne p (by simp)
    simp only [List.flatMap_cons, List.cons_append, List.nil_append, execAll] at h
    have stop : ∀ (d1 : Disk) (e : Exn), Keeps d d1 → (∀ q, q ≠ p → d1.get q = d.get q) →
        (d1.get p = d.get p ∨ (∃ c, d1.get p = some (.file c)) ∧ (d.get p = none ∨ ∃ c, d.get p = some (.file c))) → (d1, some e) = (d', r) →
        Keeps d d' ∧ (∀ q, q ∉ p :: files → d'.get q = d.get q)
          ∧ (∀ q ∈ p :: files, d'.get q = d.get q ∨ (∃ c, d'.get q = some (.file c)) ∧ (d.get q = none ∨ ∃ c, d.get q = some (.file c)))
          ∧ (r = none → (∀ q ∈ p :: files, d'.get q = some (.file (content q))) ∧ ∀ q ∈ p :: files, d.get q = none ∨ ∃ c, d.get q = some (.file c)) := by
      intro d1 e hk ho hpp h
      cases h
      refine ⟨hk, fun q hq => ho q (fun e => hq (by simp [e])), fun q _ => ?_, nofun⟩
      by_cases e : q = p
      · subst e
        exact hpp
      · exact .inl (ho q e)
    cases hf : fault n with
    | some e =>
      rw [hf] at h
      exact stop d e (.refl _) (fun _ _ => rfl) (.inl rfl) h
    | none =>
      rw [hf] at h
      cases hs : (Step.truncate p).exec d with
      | error e =>
        rw [hs] at h
        exact stop d e (.refl _) (fun _ _ => rfl) (.inl rfl) h
      | ok d1 =>
        rw [hs] at h
        obtain ⟨h1, h2⟩ := truncate_step hp hs
        have hd1 : d1.get p = some (.file []) := by rw [h2, if_pos rfl]
        simp only at h
        cases hf' : fault (n + 1) with
        | some e =>
          rw [hf'] at h
          exact stop d1 e (keeps_file h1 h2) (fun q hq => by rw [h2, if_neg hq]) (.inr ⟨⟨_, hd1⟩, h1⟩) h
        | none =>
          rw [hf'] at h
          simp only [Step.exec] at h
          have h3 : ∀ q, (d1.set p (.file (content p))).get q = if q = p then some (.file (content p)) else d.get q := by
            intro q
            rw [Disk.get_set hp, h2 q]
            split <;> rfl
          obtain ⟨i1, i2, i3, i4⟩ := writes_effect fault content files (n + 1 + 1) (d1.set p (.file (content p))) d' r (fun q hq => hne q (by simp [hq])) h
          refine ⟨(keeps_file h1 h3).trans i1, fun q hq => ?_, fun q hq => ?_, fun hr => ⟨fun q hq => ?_, fun q hq => ?_⟩⟩
          · rw [i2 q (fun h => hq (by simp [h])), h3 q, if_neg (fun e => hq (by simp [e]))]
          · by_cases e : q = p
            · subst e
              exact .inr ⟨(i1 q).2.2 (content q) (by rw [h3, if_pos rfl]), h1⟩
            · have hq' : q ∈ files := by
                rcases List.mem_cons.mp hq with h | h
                · exact absurd h e
                · exact h
              have := i3 q hq'
              rw [h3 q, if_neg e] at this
              exact this
          · by_cases hm : q ∈ files
            · exact (i4 hr).1 q hm
            · rw [i2 q hm]
              have : q = p := by
                rcases List.mem_cons.mp hq with h | h
                · exact h
                · exact absurd h hm
              rw [this, h3, if_pos rfl]
          · by_cases e : q = p
            · rw [e]
              exact h1
            · have hq' : q ∈ files := by
                rcases List.mem_cons.mp hq with h | h
                · exact absurd h e
                · exact h
              have := (i4 hr).2 q hq'
              rw [h3 q, if_neg e] at this
              exact this

/-- Whether each directory is in one before it, and each file in one of the directories. -/
def ordered (done : List Path) : List Path → Bool
  | [] => true
  | p :: rest => p != [] && (p.dropLast == [] || done.contains p.dropLast) && ordered (p :: done) rest

def Layout.good (l : Layout) : Bool :=
  ordered [] l.dirs && l.files.all (fun p => p != [] && (p.dropLast == [] || l.dirs.contains p.dropLast)) && l.dirs.all (fun p => !l.files.contains p)

theorem layouts_good : layouts.all (fun e => e.2.good) = true := by decide +kernel

theorem good_of_lookup {name : Str} {l : Layout} (h : layouts.lookup name = some l) : l.good = true := by
  have : (name, l) ∈ layouts := by
    revert h
    generalize layouts = ls
    induction ls with
    | nil => nofun
    | cons e ls ih =>
      obtain ⟨k, v⟩ := e
      rw [List.lookup_cons]
      by_cases hk : (name == k) = true
      · rw [hk]
        intro h
        cases h
        rw [eq_of_beq hk]
        exact List.mem_cons_self ..
      · rw [Bool.not_eq_true] at hk
        rw [hk]
        intro h
        exact List.mem_cons_of_mem _ (ih h)
  exact List.all_eq_true.mp layouts_good _ this

theorem ordered_ne : ∀ (dirs done : List Path), ordered done dirs = true → ∀ p ∈ dirs, p ≠ []
  | [], _, _ => nofun
  | q :: dirs, done, h => by
    simp only [ordered, Bool.and_eq_true] at h
    intro p hp
    rcases List.mem_cons.mp hp with rfl | hp
    · simpa using h.1.1
    · exact ordered_ne dirs _ h.2 p hp

structure Good (l : Layout) : Prop where
  ordered : Init.ordered [] l.dirs = true
  dirsNe : ∀ p ∈ l.dirs, p ≠ []
  filesNe : ∀ p ∈ l.files, p ≠ []
  parents : ∀ p ∈ l.files, p.dropLast = [] ∨ p.dropLast ∈ l.dirs
  apart : ∀ p ∈ l.dirs, p ∉ l.files

theorem Layout.good_iff {l : Layout} (h : l.good = true) : Good l := by
  simp only [Layout.good, Bool.and_eq_true, List.all_eq_true] at h
  obtain ⟨⟨h1, h2⟩, h3⟩ := h
  refine ⟨h1, ordered_ne _ _ h1, fun p hp => ?_, fun p hp => ?_, fun p hp => ?_⟩
  · have := h2 p hp
    simpa using this.1
  · have := (h2 p hp).2
    simpa using this
  · simpa using h3 p hp

/-- What the steps of a layout do. -/
theorem steps_effect {l : Layout} (hg : Good l) (fault : Nat → Option Exn) (content : Path → Str) {d d' : Disk} {r : Option Exn}
    (h : execAll fault 0 (l.steps content) d = (d', r)) :
    Keeps d d' ∧ (∀ p, p ∉ l.dirs → p ∉ l.files → d'.get p = d.get p) ∧ (NoConflict l d → NoConflict l d') ∧ (r = none → Created l content d' ∧ NoConflict l d) := by
  unfold Layout.steps at h
  rw [execAll_append] at h
  cases hm : execAll fault 0 (l.dirs.map .mkdir) d with
  | mk d1 r1 =>
    rw [hm] at h
    obtain ⟨m1, m2, m3, m4⟩ := mkdirs_effect fault l.dirs 0 d d1 r1 hg.dirsNe hm
    cases r1 with
    | some e =>
      cases h
      refine ⟨m1, fun p h1 _ => m2 p h1, fun hn => ⟨fun p hp => ?_, fun p hp => ?_⟩, nofun⟩
      · rcases m3 p hp with h | h
        · rw [h]
          exact hn.1 p hp
        · exact .inr h.2
      · rw [m2 p (fun h => hg.apart p h hp)]
        exact hn.2 p hp
    | none =>
      simp only at h
      obtain ⟨w1, w2, w3, w4⟩ := writes_effect fault content l.files _ d1 d' r hg.filesNe h
      have hdir : ∀ p ∈ l.dirs, d'.get p = some .dir := fun p hp => by rw [w2 p (hg.apart p hp)]; exact m4 rfl p hp
      refine ⟨m1.trans w1, fun p h1 h2 => by rw [w2 p h2, m2 p h1], fun hn => ⟨fun p hp => .inr (hdir p hp), fun p hp => ?_⟩,
        fun hr => ⟨⟨hdir, (w4 hr).1⟩, fun p hp => ?_, fun p hp => ?_⟩⟩
      · rcases w3 p hp with h | h
        · rw [h, m2 p (fun h => hg.apart p h hp)]
          exact hn.2 p hp
        · exact .inr h.1
      · rcases m3 p hp with h | h
        · right
          rw [← h]
          exact m4 rfl p hp
        · exact .inl h.1
      · have := (w4 hr).2 p hp
        rw [m2 p (fun h => hg.apart p h hp)] at this
        exact this

theorem get_root (d : Disk) : d.get [] = some .dir := rfl

theorem mkdirs_succeed : ∀ (dirs : List Path) (n : Nat) (d : Disk) (done : List Path), ordered done dirs = true → (∀ p ∈ done, d.get p = some .dir) →
    (∀ p ∈ dirs, d.get p = none ∨ d.get p = some .dir) → ∃ d', execAll (fun _ => none) n (dirs.map .mkdir) d = (d', none)
  | [], n, d, done, _, _, _ => ⟨d, rfl⟩
  | p :: dirs, n, d, done, ho, hd, hf => by
    simp only [ordered, Bool.and_eq_true, Bool.or_eq_true, bne_iff_ne, beq_iff_eq, List.contains_iff_mem] at ho
    obtain ⟨⟨hp, hpar⟩, ho⟩ := ho
    have hpd : d.get p.dropLast = some .dir := by
      rcases hpar with h | h
      · rw [h]
        rfl
      · exact hd _ h
    have : ∃ d1, (Step.mkdir p).exec d = .ok d1 := by
      simp only [Step.exec, hpd]
      rcases hf p (by simp) with h | h <;> simp [h]
    obtain ⟨d1, h1⟩ := this
    obtain ⟨h2, h3⟩ := mkdir_step hp h1
    obtain ⟨d', h4⟩ := mkdirs_succeed dirs (n + 1) d1 (p :: done) ho (fun q hq => by
        rw [h3]
        split
        · rfl
        · next e =>
          rcases List.mem_cons.mp hq with h | h
          · exact absurd h e
          · exact hd q h) (fun q hq => by
        rw [h3]
        split
        · exact .inr rfl
        · exact hf q (by simp [hq]))
    exact ⟨d', by simp only [List.map_cons, execAll, h1]; exact h4⟩

theorem writes_succeed (content : Path → Str) : ∀ (files : List Path) (n : Nat) (d : Disk), (∀ p ∈ files, p ≠ [] ∧ d.get p.dropLast = some .dir) →
    (∀ p ∈ files, d.get p = none ∨ ∃ c, d.get p = some (.file c)) →
    ∃ d', execAll (fun _ => none) n (files.flatMap fun p => [.truncate p, .write p (content p)]) d = (d', none)
  | [], n, d, _, _ => ⟨d, rfl⟩
  | p :: files, n, d, hd, hf => by
    obtain ⟨hp, hpd⟩ := hd p (by simp)
    have : ∃ d1, (Step.truncate p).exec d = .ok d1 := by
      simp only [Step.exec, hpd]
      rcases hf p (by simp) with h | ⟨c, h⟩ <;> simp [h]
    obtain ⟨d1, h1⟩ := this
    obtain ⟨h2, h3⟩ := truncate_step hp h1
    have h4 : ∀ q, (d1.set p (.file (content p))).get q = if q = p then some (.file (content p)) else d.get q := by
      intro q
      rw [Disk.get_set hp, h3 q]
      split <;> rfl
    obtain ⟨d', h5⟩ := writes_succeed content files (n + 1 + 1) (d1.set p (.file (content p))) (fun q hq => ⟨(hd q (by simp [hq])).1, (keeps_file h2 h4 _).1 (hd q (by simp [hq])).2⟩)
      (fun q hq => by
        rw [h4]
        split
        · exact .inr ⟨_, rfl⟩
        · exact hf q (by simp [hq]))
    exact ⟨d', by simp only [List.flatMap_cons, List.cons_append, List.nil_append, execAll, h1]; exact h5⟩

theorem steps_succeed {l : Layout} (hg : Good l) (content : Path → Str) {d : Disk} (h : NoConflict l d) :
    ∃ d', execAll (fun _ => none) 0 (l.steps content) d = (d', none) := by
  obtain ⟨d1, h1⟩ := mkdirs_succeed l.dirs 0 d [] hg.ordered nofun h.1
  obtain ⟨m1, m2, _, m4⟩ := mkdirs_effect _ l.dirs 0 d d1 none hg.dirsNe h1
  obtain ⟨d', h2⟩ := writes_succeed content l.files (0 + (l.dirs.map Step.mkdir).length) d1 (fun p hp => ⟨hg.filesNe p hp, by
      rcases hg.parents p hp with h | h
      · rw [h]
        rfl
      · exact m4 rfl _ h⟩) (fun p hp => by rw [m2 p (fun h => hg.apart p h hp)]; exact h.2 p hp)
  refine ⟨d', ?_⟩
  unfold Layout.steps
  rw [execAll_append, h1]
  exact h2

theorem lower_iff (r : Str) : (lower r = p!"y" ∨ lower r = p!"yes") ↔ Consent (.ok r) := by
  have hc : ∀ c k : Nat, 97 ≤ k → k ≤ 122 → ((if 65 ≤ c ∧ c ≤ 90 then c + 32 else c) = k ↔ c = k ∨ c = k - 32) := by
    intro c k h1 h2
    split <;> omega
  constructor
  · intro h
    refine ⟨r, rfl, ?_⟩
    rcases h with h | h
    · rcases r with _ | ⟨a, _ | ⟨b, r⟩⟩
      · cases h
      · simp only [lower, List.map_cons, List.map_nil, List.cons.injEq, and_true] at h
        rcases (hc a 121 (by omega) (by omega)).mp h with rfl | rfl
        · exact .inl rfl
        · exact .inr (.inl rfl)
      · simp [lower] at h
    · rcases r with _ | ⟨a, _ | ⟨b, _ | ⟨c, _ | ⟨d, r⟩⟩⟩⟩
      · cases h
      · simp [lower] at h
      · simp [lower] at h
      · simp only [lower, List.map_cons, List.map_nil, List.cons.injEq, and_true] at h
        exact .inr (.inr ⟨a, b, c, rfl, (hc a 121 (by omega) (by omega)).mp h.1, (hc b 101 (by omega) (by omega)).mp h.2.1, (hc c 115 (by omega) (by omega)).mp h.2.2⟩)
      · simp [lower] at h
  · rintro ⟨r', hr, h⟩
    cases hr
    rcases h with rfl | rfl | ⟨a, b, c, rfl, h1, h2, h3⟩
    · exact .inl rfl
    · exact .inl rfl
    · right
      rcases h1 with rfl | rfl <;> rcases h2 with rfl | rfl <;> rcases h3 with rfl | rfl <;> rfl

/-- The different ways in which the program may go on. -/
theorem run_cases (content : Str → Path → Str) (fault : Nat → Option Exn) (answer : Except Exn Str) (name : Str) (d : Disk) :
    (layouts.lookup name = none ∧ (∃ e, run content fault answer name d = (d, .raised e)))
    ∨ ∃ l, layouts.lookup name = some l
      ∧ ((d.nonEmpty = true ∧ ¬ Consent answer ∧ (run content fault answer name d = (d, .exit 1) ∨ ∃ e, run content fault answer name d = (d, .raised e)))
        ∨ ((d.nonEmpty = false ∨ Consent answer)
          ∧ run content fault answer name d = ((execAll fault 0 (l.steps (content name)) d).1, match (execAll fault 0 (l.steps (content name)) d).2 with
            | none => .exit 0
            | some e => .raised e))) := by
  cases hl : layouts.lookup name with
  | none => exact .inl ⟨rfl, _, by simp only [run, hl]; rfl⟩
  | some l =>
    refine .inr ⟨l, rfl, ?_⟩
    have go : ∀ x : Disk × Option Exn, (match x with
        | (d', none) => (d', End.exit 0)
        | (d', some e) => (d', End.raised e)) = (x.1, match x.2 with
            | none => .exit 0
            | some e => .raised e) := by
      rintro ⟨d', r⟩
      cases r <;> rfl
    cases hn : d.nonEmpty with
    | false =>
      refine .inr ⟨.inl rfl, ?_⟩
      simp only [run, hl, hn]
      exact go _
    | true =>
      cases answer with
      | error e =>
        refine .inl ⟨rfl, (fun ⟨r, h, _⟩ => by cases h), .inr ⟨e, ?_⟩⟩
        simp only [run, hl, hn]
        rfl
      | ok r =>
        by_cases hc : Consent (.ok r)
        · refine .inr ⟨.inr hc, ?_⟩
          have : (decide (lower r = p!"y") || decide (lower r = p!"yes")) = true := by simpa using (lower_iff r).mpr hc
          simp only [run, hl, hn, if_pos, Except.map, this]
          exact go _
        · refine .inl ⟨rfl, hc, .inl ?_⟩
          have : (decide (lower r = p!"y") || decide (lower r = p!"yes")) = false := by
            rw [Bool.eq_false_iff]
            intro h
            exact hc ((lower_iff r).mp (by simpa using h))
          simp only [run, hl, hn, if_pos, Except.map, this]

/-- C87, consent: in a directory that is not empty, nothing happens unless the user agrees. -/
theorem C87_consent (content : Str → Path → Str) (fault : Nat → Option Exn) (answer : Except Exn Str) (name : Str) {d : Disk} (hd : d.nonEmpty = true) (hc : ¬ Consent answer) :
    (run content fault answer name d).1 = d ∧ (run content fault answer name d).2 ≠ .exit 0 := by
  rcases run_cases content fault answer name d with ⟨_, e, h⟩ | ⟨l, _, ⟨_, _, h | ⟨e, h⟩⟩ | ⟨h, _⟩⟩
  · rw [h]
    exact ⟨rfl, nofun⟩
  · rw [h]
    exact ⟨rfl, nofun⟩
  · rw [h]
    exact ⟨rfl, nofun⟩
  · rcases h with h | h
    · rw [hd] at h
      cases h
    · exact absurd h hc

/-- C87, what may be changed: whatever happens and wherever the program is interrupted, nothing but the directories and files of the
layout is created or changed, nothing is removed, and existing directories stay what they are. -/
theorem C87_contained (content : Str → Path → Str) (fault : Nat → Option Exn) (answer : Except Exn Str) (name : Str) (d : Disk) :
    Keeps d (run content fault answer name d).1
      ∧ ∀ p, (∀ l, layouts.lookup name = some l → p ∉ l.dirs ∧ p ∉ l.files) → (run content fault answer name d).1.get p = d.get p := by
  rcases run_cases content fault answer name d with ⟨_, e, h⟩ | ⟨l, hl, ⟨_, _, h | ⟨e, h⟩⟩ | ⟨_, h⟩⟩
  · rw [h]
    exact ⟨.refl _, fun _ _ => rfl⟩
  · rw [h]
    exact ⟨.refl _, fun _ _ => rfl⟩
  · rw [h]
    exact ⟨.refl _, fun _ _ => rfl⟩
  · rw [h]
    obtain ⟨h1, h2, _⟩ := steps_effect (Layout.good_iff (good_of_lookup hl)) fault (content name) (d := d) rfl
    exact ⟨h1, fun p hp => h2 p (hp l hl).1 (hp l hl).2⟩

/-- C87, success: with exit code 0, all directories and files of the layout are there. If nobody interrupts it, the program ends so if
and only if the user agrees (or the directory is empty) and no directory is in the place of a file or the other way round. -/
theorem C87_success {name : Str} {l : Layout} (hl : layouts.lookup name = some l) (content : Str → Path → Str) (answer : Except Exn Str) (d : Disk) :
    (∀ fault, (run content fault answer name d).2 = .exit 0 → Created l (content name) (run content fault answer name d).1)
      ∧ ((run content (fun _ => none) answer name d).2 = .exit 0 ↔ (d.nonEmpty = false ∨ Consent answer) ∧ NoConflict l d) := by
  have hg := Layout.good_iff (good_of_lookup hl)
  have key : ∀ fault, (run content fault answer name d).2 = .exit 0 →
      (d.nonEmpty = false ∨ Consent answer) ∧ Created l (content name) (run content fault answer name d).1 ∧ NoConflict l d := by
    intro fault h0
    rcases run_cases content fault answer name d with ⟨h1, _⟩ | ⟨l', hl', ⟨_, _, h | ⟨e, h⟩⟩ | ⟨hc, h⟩⟩
    · rw [hl] at h1
      cases h1
    · rw [h] at h0
      cases h0
    · rw [h] at h0
      cases h0
    · rw [hl] at hl'
      cases hl'
      rw [h] at h0 ⊢
      obtain ⟨_, _, _, h4⟩ := steps_effect hg fault (content name) (d := d) rfl
      have hr : (execAll fault 0 (l.steps (content name)) d).2 = none := by
        cases hx : (execAll fault 0 (l.steps (content name)) d).2 with
        | none => rfl
        | some e =>
          rw [hx] at h0
          cases h0
      exact ⟨hc, h4 hr⟩
  refine ⟨fun fault h => (key fault h).2.1, fun h => ⟨(key _ h).1, (key _ h).2.2⟩, fun ⟨hc, hn⟩ => ?_⟩
  rcases run_cases content (fun _ => none) answer name d with ⟨h1, _⟩ | ⟨l', hl', ⟨h1, h2, _⟩ | ⟨_, h⟩⟩
  · rw [hl] at h1
    cases h1
  · rcases hc with h | h
    · rw [h1] at h
      cases h
    · exact absurd h h2
  · rw [hl] at hl'
    cases hl'
    obtain ⟨d', hd⟩ := steps_succeed hg (content name) hn
    rw [h, hd]

theorem layout_mem {name : Str} {l : Layout} (hl : layouts.lookup name = some l) : (name, l) ∈ layouts := by
  revert hl
  generalize layouts = ls
  induction ls with
  | nil => nofun
  | cons e es ih =>
    intro hl
    obtain ⟨n, x⟩ := e
    rw [List.lookup_cons] at hl
    by_cases hn : name = n
    · subst hn
      simp at hl
      subst hl
      exact .head _
    · rw [beq_false_of_ne hn] at hl
      exact .tail _ (ih hl)

/-- C87, usable: whichever layout was created, there is a script `deploy.py` to run and the inventories to run it with, and with an inventory
comes a directory `hosts` beside it that has a host module. -/
theorem C87_usable {name : Str} (content : Str → Path → Str) (fault : Nat → Option Exn) (answer : Except Exn Str) (d : Disk)
    (h : (run content fault answer name d).2 = .exit 0) :
    (∃ c, (run content fault answer name d).1.get [p!"deploy.py"] = some (.file c))
      ∧ ∀ i ∈ inventories name, (∃ c, (run content fault answer name d).1.get i = some (.file c))
        ∧ (run content fault answer name d).1.get (i.dropLast ++ [p!"hosts"]) = some .dir
        ∧ ∃ m c, (run content fault answer name d).1.get (i.dropLast ++ [p!"hosts", m]) = some (.file c) := by
  cases hl : layouts.lookup name with
  | none =>
    rcases run_cases content fault answer name d with ⟨_, e, h1⟩ | ⟨l', hl', _⟩
    · rw [h1] at h
      cases h
    · rw [hl] at hl'
      cases hl'
  | some l =>
    obtain ⟨hd, hf⟩ := (C87_success hl content answer d).1 fault h
    have hmem := layout_mem hl
    have hall : layouts.all (fun e => e.2.files.contains [p!"deploy.py"] && (inventories e.1).all fun i =>
        e.2.files.contains i && e.2.dirs.contains (i.dropLast ++ [p!"hosts"])
          && e.2.files.any fun f => f.dropLast == i.dropLast ++ [p!"hosts"] && f != []) = true := by
      decide +kernel
    have hm := List.all_eq_true.mp hall _ hmem
    simp only [Bool.and_eq_true, List.contains_iff_mem, List.all_eq_true, List.any_eq_true, beq_iff_eq, bne_iff_ne] at hm
    refine ⟨⟨_, hf _ hm.1⟩, fun i hi => ?_⟩
    obtain ⟨⟨h1, h2⟩, f, h3, h4, h5⟩ := hm.2 i hi
    refine ⟨⟨_, hf _ h1⟩, hd _ h2, f.getLast h5, content name f, ?_⟩
    have hfe : i.dropLast ++ [p!"hosts", f.getLast h5] = f := by
      have := List.dropLast_concat_getLast h5
      rw [h4] at this
      simpa using this
    rw [hfe]
    exact hf _ h3

/-- C87, modules: with exit code 0, a file that was not there before is a Python module, unless it is in a directory for files or templates. -/
theorem C87_modules {name : Str} (content : Str → Path → Str) (fault : Nat → Option Exn) (answer : Except Exn Str) (d : Disk) (p : Path) (c : Str)
    (h : (run content fault answer name d).2 = .exit 0) (h0 : d.get p = none) (h1 : (run content fault answer name d).1.get p = some (.file c)) :
    (∃ dir stem, p = dir ++ [stem ++ p!".py"]) ∨ p!"files" ∈ p ∨ p!"templates" ∈ p := by
  have hc := (C87_contained content fault answer name d).2 p
  cases hl : layouts.lookup name with
  | none =>
    rw [hc (fun l h => by rw [hl] at h; cases h), h0] at h1
    cases h1
  | some l =>
    by_cases hf : p ∈ l.files
    · have hall : layouts.all (fun e => e.2.files.all fun f => p!".py" == (f.getLastD []).drop ((f.getLastD []).length - 3) && f != [] || f.contains p!"files" || f.contains p!"templates") = true := by
        decide +kernel
      have := List.all_eq_true.mp (List.all_eq_true.mp hall _ (layout_mem hl)) p hf
      simp only [Bool.or_eq_true, Bool.and_eq_true, beq_iff_eq, bne_iff_ne, List.contains_iff_mem] at this
      rcases this with (⟨h2, h3⟩ | h2) | h2
      · left
        refine ⟨p.dropLast, (p.getLastD []).take ((p.getLastD []).length - 3), ?_⟩
        rw [h2, List.take_append_drop]
        have hd := List.dropLast_concat_getLast h3
        rw [List.getLastD_eq_getLast?, List.getLast?_eq_some_getLast h3]
        exact hd.symm
      · exact .inr (.inl h2)
      · exact .inr (.inr h2)
    · by_cases hd : p ∈ l.dirs
      · rw [((C87_success hl content answer d).1 fault h).1 p hd] at h1
        cases h1
      · rw [hc (fun l' h => by rw [hl] at h; cases h; exact ⟨hd, hf⟩), h0] at h1
        cases h1

/-- C87, an empty directory: nobody is asked, and every layout can be created. -/
theorem C87_fresh {name : Str} {l : Layout} (hl : layouts.lookup name = some l) (content : Str → Path → Str) (answer : Except Exn Str) {d : Disk} (hs : Sound d)
    (he : d.nonEmpty = false) : Empty d ∧ (run content (fun _ => none) answer name d).2 = .exit 0 := by
  have hempty : Empty d := by
    have aux : ∀ (n : Nat) (p : Path), p.length ≤ n → p ≠ [] → d.get p = none := by
      intro n
      induction n with
      | zero =>
        intro p hp hne
        exact absurd (List.length_eq_zero_iff.mp (by omega)) hne
      | succ n ih =>
        intro p hp hne
        by_cases h1 : p.length = 1
        · unfold Disk.get
          rw [if_neg hne]
          unfold Disk.nonEmpty at he
          rw [Option.map_eq_none_iff, List.find?_eq_none]
          intro e hem hep
          rw [List.any_eq_false] at he
          have := he e hem
          rw [of_decide_eq_true hep, h1] at this
          exact this rfl
        · cases hg : d.get p with
          | none => rfl
          | some x =>
            have h2 := hs p (by rw [hg]; nofun)
            have hl : p.dropLast.length = p.length - 1 := List.length_dropLast
            have hpos : p.length ≠ 0 := fun e => hne (List.length_eq_zero_iff.mp e)
            rw [ih p.dropLast (by omega) (fun e => by rw [e] at hl; simp only [List.length_nil] at hl; omega)] at h2
            cases h2
    exact fun p hp => aux p.length p (Nat.le_refl _) hp
  have hg := Layout.good_iff (good_of_lookup hl)
  exact ⟨hempty, (C87_success hl content answer d).2.mpr ⟨.inl he, fun p hp => .inl (hempty p (hg.dirsNe p hp)), fun p hp => .inl (hempty p (hg.filesNe p hp))⟩⟩

/-- C87, the command line: whatever is given after `--init`, if the parser accepts it, there is a layout of this name, and in an empty
directory it is created. Every layout can be chosen. -/
theorem C87_choices (content : Str → Path → Str) (answer : Except Exn Str) {d : Disk} (hs : Sound d) (he : d.nonEmpty = false) (noColorSet tty : Bool) (name : Str) :
    (∀ argv, mainCmdline noColorSet tty argv = .init name → (run content (fun _ => none) answer name d).2 = .exit 0)
      ∧ ((run content (fun _ => none) answer name d).2 = .exit 0 → mainCmdline noColorSet tty [p!"--init", name] = .init name) := by
  have hall : ∀ v ∈ Run.layouts, ∃ l, layouts.lookup v = some l := by
    intro v hv
    have hall : Run.layouts.all (fun v => (layouts.lookup v).isSome) = true := by decide +kernel
    exact Option.isSome_iff_exists.mp (List.all_eq_true.mp hall v hv)
  constructor
  · intro argv h
    obtain ⟨l, hl⟩ := hall _ (C90_asked noColorSet tty argv |>.1 _ h).1
    exact (C87_fresh hl content answer hs he).2
  · intro h
    have hv : name ∈ Run.layouts := by
      cases hl : layouts.lookup name with
      | none =>
        rcases run_cases content (fun _ => none) answer name d with ⟨_, e, h1⟩ | ⟨l', hl', _⟩
        · rw [h1] at h
          cases h
        · rw [hl] at hl'
          cases hl'
      | some l =>
        have hall : layouts.all (fun e => decide (e.1 ∈ Run.layouts)) = true := by decide +kernel
        exact of_decide_eq_true (List.all_eq_true.mp hall _ (layout_mem hl))
    have hinit : ∀ v ∈ Run.layouts, mainCmdline noColorSet tty [p!"--init", v] = .init v := by
      intro v hv
      simp only [Run.layouts, List.mem_cons, List.not_mem_nil, or_false] at hv
      rcases hv with rfl | rfl | rfl | rfl | rfl <;> cases noColorSet <;> cases tty <;> rfl
    exact hinit name hv

/-- C87, again: after the program was interrupted anywhere - or not at all - it can be run again, and if the user agrees, the directory
is then as it would be after one run without interruption. -/
theorem C87_resume {name : Str} {l : Layout} (hl : layouts.lookup name = some l) (content : Str → Path → Str) (fault : Nat → Option Exn) {answer first : Except Exn Str}
    (hc : Consent answer) {d : Disk} (hn : NoConflict l d) :
    let d1 := (run content fault first name d).1
    (run content (fun _ => none) answer name d1).2 = .exit 0
      ∧ ∀ p, (run content (fun _ => none) answer name d1).1.get p = (run content (fun _ => none) answer name d).1.get p := by
  intro d1
  have hg := Layout.good_iff (good_of_lookup hl)
  have hn1 : NoConflict l d1 := by
    show NoConflict l (run content fault first name d).1
    rcases run_cases content fault first name d with ⟨h1, _⟩ | ⟨l', hl', ⟨_, _, h | ⟨e, h⟩⟩ | ⟨_, h⟩⟩
    · rw [hl] at h1
      cases h1
    · rw [h]
      exact hn
    · rw [h]
      exact hn
    · rw [hl] at hl'
      cases hl'
      rw [h]
      exact (steps_effect hg fault (content name) (d := d) rfl).2.2.1 hn
  have r1 := (C87_success hl content answer d1).2.mpr ⟨.inr hc, hn1⟩
  have r0 := (C87_success hl content answer d).2.mpr ⟨.inr hc, hn⟩
  refine ⟨r1, fun p => ?_⟩
  have c1 := (C87_success hl content answer d1).1 _ r1
  have c0 := (C87_success hl content answer d).1 _ r0
  by_cases hd : p ∈ l.dirs
  · rw [c1.1 p hd, c0.1 p hd]
  · by_cases hf : p ∈ l.files
    · rw [c1.2 p hf, c0.2 p hf]
    · have out : ∀ l', layouts.lookup name = some l' → p ∉ l'.dirs ∧ p ∉ l'.files := fun l' hl' => by
        rw [hl] at hl'
        cases hl'
        exact ⟨hd, hf⟩
      rw [(C87_contained content _ answer name d1).2 p out, (C87_contained content _ answer name d).2 p out]
      exact (C87_contained content fault first name d).2 p out

namespace Example

def content (_ : Str) (p : Path) : Str := p.flatten

/-- A directory with a file of the user, and one that will be overwritten. -/
def disk : Disk := [([p!"hosts"], .dir), ([p!"hosts", p!"web.py"], .file p!"mine"), ([p!"deploy.py"], .file p!"old")]

example : disk.nonEmpty = true ∧ NoConflict minimal disk := by
  refine ⟨rfl, ?_, ?_⟩
  · intro p hp
    simp only [minimal, List.mem_cons, List.not_mem_nil, or_false] at hp
    subst hp
    exact .inr rfl
  · intro p hp
    simp only [minimal, List.mem_cons, List.not_mem_nil, or_false] at hp
    rcases hp with rfl | rfl | rfl
    · exact .inl rfl
    · exact .inl rfl
    · exact .inr ⟨_, rfl⟩

example : Sound [] ∧ Disk.nonEmpty [] = false := ⟨fun p hp => by cases p with | nil => rfl | cons a p => exact absurd rfl hp, rfl⟩
example : Consent (.ok p!"YeS") := ⟨_, rfl, .inr (.inr ⟨_, _, _, rfl, by decide, by decide, by decide⟩)⟩
example : (run content (fun _ => none) (.ok p!"YeS") p!"minimal" disk).2 = .exit 0 := by decide +kernel
example : (run content (fun _ => none) (.ok p!"YeS") p!"minimal" disk).1.get [p!"deploy.py"] = some (.file p!"deploy.py") := by decide +kernel
example : (run content (fun _ => none) (.ok p!"") p!"minimal" disk).2 = .exit 1 := by decide +kernel
example : inventories p!"minimal" = [[p!"inventory.py"]] := by decide +kernel
example : (run content (fun _ => none) (.ok p!"") p!"staging_prod" []).2 = .exit 0 := by decide +kernel

/-- Interrupted in the middle of a file. -/
example : (run content (fun n => if n = 2 then some (.runtimeError []) else none) (.ok p!"y") p!"minimal" []).1.get [p!"hosts", p!"localhost.py"] = some (.file []) := by decide +kernel

end Example

end Verif.Run.Init
