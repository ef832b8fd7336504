/-
Lemmas about `git.repo`.
-/
import Verif.Ops.GitSpec
import Verif.Ops.GroupLemmas
import Verif.Ops.ServiceLemmas
import Verif.Py.NumLemmas
import Verif.Ops.Traces
import Verif.Ops.PackageLemmas

namespace Verif.Ops

open Script Remote
open Client (Prog)
open Wire (Packet)

/-! ### What git prints -/

theorem decodeBackslashAux_ascii : ∀ (s : Str) (f : Nat) (b : Bytes), (∀ c ∈ s, c < 128) → b.length ≤ f →
    Py.decodeBackslashAux (s.length + f) (ascii s ++ b) = s ++ Py.decodeBackslashAux f b
  | [], f, b, _, _ => by simp [ascii]
  | c :: s, f, b, h, hf => by
    have hc : c < 128 := h c (by simp)
    have h2 : (c :: s).length + f = (s.length + f) + 1 := by simp; omega
    have h3 : ascii (c :: s) ++ b = UInt8.ofNat c :: (ascii s ++ b) := rfl
    rw [h2, h3]
    have hn : (UInt8.ofNat c).toNat = c := by simp; omega
    have hd : Py.decodeChar (UInt8.ofNat c :: (ascii s ++ b)) = some (c, ascii s ++ b) := by
      unfold Py.decodeChar
      simp only [hn]
      rw [if_pos hc]
    simp only [Py.decodeBackslashAux, hd]
    rw [decodeBackslashAux_ascii s f b (fun x hx => h x (by simp [hx])) hf]
    rfl

theorem decodeBackslash_ascii {s : Str} {b : Bytes} (h : ∀ c ∈ s, c < 128) : Py.decodeBackslash (ascii s ++ b) = s ++ Py.decodeBackslash b := by
  unfold Py.decodeBackslash
  have : (ascii s ++ b).length = s.length + b.length := by simp [ascii]
  rw [this]
  exact decodeBackslashAux_ascii s b.length b h (Nat.le_refl _)

theorem word_small {s : Str} (h : Word s) : ∀ c ∈ s, c < 128 := fun c hc => by have := h.2 c hc; omega

theorem word_space {s : Str} (h : Word s) : ∀ c ∈ s, Py.isSpace c = false := by
  intro c hc
  have := h.2 c hc
  unfold Py.isSpace
  simp only [Bool.or_eq_false_iff, Bool.and_eq_false_iff, decide_eq_false_iff_not, beq_eq_false_iff_ne, ne_eq, Nat.not_le]
  omega

theorem strip_word_prefix {s : Str} (h : Word s) (r : Str) : ∃ r', r' <+: r ∧ Py.strip (s ++ r) = s ++ r' := by
  have hsp := word_space h
  have h1 : (s ++ r).dropWhile Py.isSpace = s ++ r := by
    cases s with
    | nil => exact absurd rfl h.1
    | cons c s => simp [List.dropWhile, hsp c (by simp)]
  unfold Py.strip
  rw [h1, List.reverse_append]
  have h2 : s.reverse ≠ [] := by simpa using h.1
  refine ⟨(r.reverse.dropWhile Py.isSpace).reverse, ?_, ?_⟩
  · have h3 : r.reverse.dropWhile Py.isSpace <:+ r.reverse := List.dropWhile_suffix _
    have h4 := List.reverse_prefix.mpr h3
    rwa [List.reverse_reverse] at h4
  · have h3 : (r.reverse ++ s.reverse).dropWhile Py.isSpace = r.reverse.dropWhile Py.isSpace ++ s.reverse := by
      generalize r.reverse = q
      induction q with
      | nil =>
        simp only [List.nil_append, List.dropWhile_nil]
        exact Py.dropWhile_eq_self (by simpa using hsp)
      | cons x q ih =>
        cases hx : Py.isSpace x with
        | true => simp [hx, ih]
        | false => simp [hx]
    rw [h3, List.reverse_append, List.reverse_reverse]

theorem outputText_word {s : Str} (h : Word s) : outputText (some (ascii s ++ b!"\n")) = s := by
  show Py.strip (Py.decodeBackslash (ascii s ++ b!"\n")) = s
  rw [decodeBackslash_ascii (word_small h)]
  have h1 : Py.decodeBackslash b!"\n" = [10] := by decide
  rw [h1]
  have hsp := word_space h
  unfold Py.strip
  have h2 : (s ++ [10]).dropWhile Py.isSpace = s ++ [10] := by
    cases s with
    | nil => exact absurd rfl h.1
    | cons c s => simp [List.dropWhile, hsp c (by simp)]
  rw [h2, List.reverse_append]
  have h3 : ([10].reverse ++ s.reverse).dropWhile Py.isSpace = s.reverse := by
    show (10 :: s.reverse).dropWhile Py.isSpace = _
    have : Py.isSpace 10 = true := by decide
    rw [List.dropWhile_cons, if_pos this]
    exact Py.dropWhile_eq_self (by simpa using hsp)
  rw [h3, List.reverse_reverse]

theorem takeWhile_word {s r : Str} (hsp : ∀ c ∈ s, Py.isSpace c = false) (hr : r = [] ∨ ∃ c r', r = c :: r' ∧ Py.isSpace c = true) :
    (s ++ r).takeWhile (fun c => !Py.isSpace c) = s := by
  induction s with
  | nil =>
    rcases hr with rfl | ⟨c, r', rfl, hc⟩
    · rfl
    · simp [hc]
  | cons c s ih =>
    simp only [List.cons_append]
    rw [List.takeWhile_cons]
    simp only [hsp c (by simp), Bool.not_false, if_true]
    rw [ih fun x hx => hsp x (by simp [hx])]

theorem firstWord_word {s : Str} {b : Bytes} (h : Word s) : firstWord (outputText (some (ascii s ++ b!"\t" ++ b))) = .ok s := by
  have h1 : ascii s ++ b!"\t" ++ b = ascii s ++ (ascii [9] ++ b) := by rw [List.append_assoc]; rfl
  have h2 : outputText (some (ascii s ++ b!"\t" ++ b)) = Py.strip (s ++ (9 :: Py.decodeBackslash b)) := by
    rw [h1]
    show Py.strip (Py.decodeBackslash (ascii s ++ (ascii [9] ++ b))) = _
    rw [ decodeBackslash_ascii (word_small h), decodeBackslash_ascii (by decide)]
    rfl
  obtain ⟨r', hr', h3⟩ := strip_word_prefix h (9 :: Py.decodeBackslash b)
  rw [h2, h3]
  have h4 : r' = [] ∨ ∃ c r'', r' = c :: r'' ∧ Py.isSpace c = true := by
    cases r' with
    | nil => exact .inl rfl
    | cons c r'' =>
      obtain ⟨z, hz⟩ := hr'
      simp only [List.cons_append, List.cons.injEq] at hz
      exact .inr ⟨c, r'', rfl, by rw [hz.1]; decide⟩
  have h5 := takeWhile_word (word_space h) h4
  unfold firstWord
  have hne := h.1
  cases hs : s ++ r' with
  | nil =>
    simp only [List.append_eq_nil_iff] at hs
    exact absurd hs.1 hne
  | cons c q => rw [hs] at h5; simp only; rw [h5]

theorem opt_eq (name : Str) (v : Option Str) : optArg name v = opt name v := by
  cases v <;> rfl

theorem cloneCommand_eq (a : RepoArgs) :
    cloneCommand a = [p!"git", p!"clone"] ++ opt p!"--depth" (a.depth.map Py.intStr) ++ opt p!"--branch" a.branchOrTag ++ [p!"--", a.url, a.path] := by
  unfold cloneCommand; rw [opt_eq, opt_eq]

theorem pullCommand_eq (a : RepoArgs) :
    pullCommand a = [p!"git", p!"-C", a.path, p!"pull"] ++ opt p!"--depth" (a.depth.map Py.intStr) ++ flag p!"--rebase" a.rebase ++ flag p!"--ff-only" a.ffOnly := by
  unfold pullCommand flag; rw [opt_eq]

theorem submoduleCommand_eq (a : RepoArgs) :
    submoduleCommand a = [p!"git", p!"-C", a.path, p!"submodule", p!"update", p!"--init"]
      ++ opt p!"--depth" (if a.shallowSubmodules then a.depth.map Py.intStr else none) ++ flag p!"--recursive" a.recursiveSubmodules := by
  unfold submoduleCommand flag; rw [opt_eq]; cases a.shallowSubmodules <;> rfl

/-! ### On a host with git -/

section
variable {sys : Sys} {lost : Nat → Option Bool} {env : Env} {st : St} {w : World} {G : Repositories}

/-- What the operation can have done when it ends normally. -/
def RepoOutcome (G : Repositories) (a : RepoArgs) (ref : Str) (dry : Bool) (w w' : World) (r : OpResult) : Prop :=
  (r.success = false ∧ r.changed = false ∧ Same w w')
  ∨ (r.success = true ∧ a.update = false ∧ (∃ c, G.clone w a.path = some c) ∧ r.changed = false ∧ Same w w')
  ∨ (∃ c u, r.success = true ∧ a.update = true ∧ G.clone w a.path = some c ∧ G.upstream a.url ref = some u ∧ c.commit = u.object ∧ r.changed = false ∧ Same w w')
  ∨ (∃ u, r.success = true ∧ dry = true ∧ G.upstream a.url ref = some u ∧ (∀ c, G.clone w a.path = some c → a.update = true ∧ c.commit ≠ u.object) ∧ r.changed = true ∧ Same w w')
  ∨ (∃ u c', r.success = true ∧ dry = false ∧ G.clone w a.path = none ∧ G.upstream a.url ref = some u ∧ r.changed = true
      ∧ G.clone w' a.path = some c' ∧ (a.branchOrTag ≠ some [] → c'.origin = a.url ∧ c'.commit = u.commit ∧ c'.ahead = false
      ∧ (u.branch = true → ∃ b, c'.follows = some b ∧ G.upstream a.url b = some u) ∧ (u.branch = false → c'.follows = none)))
  ∨ (∃ u c c' b v, r.success = true ∧ dry = false ∧ a.update = true ∧ G.clone w a.path = some c ∧ c.origin = a.url ∧ G.upstream a.url ref = some u
      ∧ c.commit ≠ u.object ∧ r.changed = true ∧ c.follows = some b ∧ G.upstream a.url b = some v
      ∧ G.clone w' a.path = some c' ∧ c'.origin = c.origin ∧ c'.follows = c.follows ∧ (c.ahead = false → c'.commit = v.commit ∧ c'.ahead = false))

/-- When nothing changes, whatever happens. -/
def RepoCalm (G : Repositories) (a : RepoArgs) (ref : Str) (dry : Bool) (w w' : World) : Prop :=
  (dry = true → Same w w')
  ∧ ∀ c, G.clone w a.path = some c → (c.origin ≠ a.url → Same w w') ∧ (a.update = false → Same w w')
    ∧ (∀ u, G.upstream a.url ref = some u → c.commit = u.object → Same w w')

theorem calm_same {a : RepoArgs} {ref : Str} {dry : Bool} {w w' : World} (h : Same w w') : RepoCalm G a ref dry w w' :=
  ⟨fun _ => h, fun _ _ => ⟨fun _ => h, fun _ => h, fun _ _ _ => h⟩⟩

theorem submodules_post {a : RepoArgs} (T : GitHost sys G a.path a.url) {E : World → Prop} (hE : ∀ w', E w') :
    Post sys lost (submodules a) env st w (fun _ st' w' => st' = st ∧ G.clone w' a.path = G.clone w a.path) E := by
  unfold Ops.submodules
  split
  · refine Post.runAny (fun p out err code w' hp hx => ⟨hE _, fun hc => ?_⟩) (hE _)
    subst hc
    rw [submoduleCommand_eq] at hp
    exact ⟨rfl, by rw [T.submodules _ _ p _ out err w' hp hx, T.history]⟩
  · exact Post.pure ⟨rfl, rfl⟩

theorem same_clone {a : RepoArgs} (T : GitHost sys G a.path a.url) {w w' : World} (h : Same w w') : G.clone w' a.path = G.clone w a.path := by
  rw [h]; exact T.history _ _

/-- The state before. -/
def repoBefore (c : Option Clone) : Dict :=
  match c with
  | none => [(p!"initialized", .bool false), (p!"commit", .null)]
  | some c => [(p!"initialized", .bool true), (p!"commit", .str c.commit)]

theorem repoBefore_printable {c : Option Clone} {v : Val} : printable (repoBefore c) [(p!"initialized", .bool true), (p!"commit", v)] = true := by
  cases c <;> rfl

theorem Post.unchanged {i f : Dict} (hs : States st i f) {Q : Bool → St → World → Prop} {E : World → Prop} (h : Q (i.eq f) st w) :
    Post sys lost (Script.unchanged) env st w Q E := by
  intro k
  simp only [exec, Script.unchanged, hs.initial, hs.final, Prog.run, Bool.not_false, if_true]
  exact h

theorem Post.dry {Q : Bool → St → World → Prop} {E : World → Prop} (h : Q env.dry st w) : Post sys lost Script.dry env st w Q E := fun _ => h

/-- What is looked up upstream. -/
def refOf (a : RepoArgs) : Str := if a.branchOrTag = some [] then p!"HEAD" else requested a

theorem repoBefore_eq (c : Option Clone) (s : Str) :
    (repoBefore c).eq [(p!"initialized", .bool true), (p!"commit", .str s)] = decide (c.map (·.commit) = some s) := by
  cases c with
  | none => rfl
  | some c =>
    have : (repoBefore (some c)).eq [(p!"initialized", .bool true), (p!"commit", .str s)] = ((c.commit == s) && true) := rfl
    rw [this, Bool.eq_iff_iff]; simp

theorem repoSettle_post {a : RepoArgs} (T : GitHost sys G a.path a.url) {w0 : World} (hsame : Same w0 w)
    (hi : st.op.initial = some (repoBefore (G.clone w0 a.path))) (hf : st.op.final = none) (hn : st.op.hasNested = false) :
    Post sys lost (repoSettle a (G.clone w0 a.path).isSome ((G.clone w0 a.path).map (·.commit))) env st w
      (fun r _ w' => RepoOutcome G a (refOf a) env.dry w0 w' r ∧ RepoCalm G a (refOf a) env.dry w0 w')
      (RepoCalm G a (refOf a) env.dry w0) := by
  have href : (orStr a.branchOrTag (some p!"HEAD")).getD [] = (refOf a) := by
    unfold refOf requested
    cases h : a.branchOrTag with
    | none => rfl
    | some s => cases s <;> rfl
  unfold repoSettle
  by_cases hup : ((G.clone w0 a.path).isSome && !a.update) = true
  · rw [if_pos hup]
    simp only [Bool.and_eq_true, Bool.not_eq_true', Option.isSome_iff_exists] at hup
    obtain ⟨⟨c, hc⟩, hup⟩ := hup
    rw [hc] at hi ⊢
    refine Post.bind (Post.finalState hn hf ?_)
    have hst : States { st with op := { st.op with final := some [(p!"initialized", .bool true), (p!"commit", .str c.commit)] } }
      (repoBefore (some c)) [(p!"initialized", .bool true), (p!"commit", .str c.commit)] := ⟨repoBefore_printable, hn, hi, rfl⟩
    refine Post.success hst ?_
    refine ⟨.inr (.inl ⟨rfl, hup, ⟨c, hc⟩, ?_, hsame⟩), calm_same hsame⟩
    show (!Dict.eq _ _) = false
    rw [repoBefore_eq]; simp
  · rw [if_neg hup]
    have hup : ∀ c, G.clone w0 a.path = some c → a.update = true := by
      intro c hc
      simpa [hc] using hup
    refine Post.bind (Post.run (fun p out err code w1 hp hx => ?_) (calm_same hsame))
    rw [href] at hp
    obtain ⟨rfl, hls⟩ := T.lsRemote _ p _ out err code w1 hp hx
    have hs1 : Same w0 { w with started := p :: w.started } := same_trans hsame (same_started _ _)
    generalize hw1 : ({ w with started := p :: w.started } : World) = w1 at hs1
    refine ⟨calm_same hs1, fun hcode => ?_⟩
    obtain ⟨u, rest, hu, rfl⟩ := hls (hcode rfl)
    have hword := T.objects _ _ hu
    refine Post.bind (Post.ofExcept (fun newest hnew => ?_) (calm_same hs1))
    rw [firstWord_word hword] at hnew
    replace hnew := (Except.ok.inj hnew).symm
    subst hnew
    refine Post.bind (Post.finalState hn hf ?_)
    have hst : States { st with op := { st.op with final := some [(p!"initialized", .bool true), (p!"commit", .str u.object)] } }
      (repoBefore (G.clone w0 a.path)) [(p!"initialized", .bool true), (p!"commit", .str u.object)] := ⟨repoBefore_printable, hn, hi, rfl⟩
    refine Post.bind (Post.unchanged hst ?_)
    rw [repoBefore_eq]
    by_cases hsm : (G.clone w0 a.path).map (·.commit) = some u.object
    · simp only [hsm, decide_true, if_true]
      refine Post.success hst ?_
      obtain ⟨c, hc, hcu⟩ := Option.map_eq_some_iff.mp hsm
      refine ⟨.inr (.inr (.inl ⟨c, u, rfl, hup c hc, hc, hu, hcu, ?_, hs1⟩)), calm_same hs1⟩
      show (!Dict.eq _ _) = false
      rw [repoBefore_eq]; simp [hsm]
    · simp only [hsm, decide_false, Bool.false_eq_true, if_false]
      have hchanged : (!(repoBefore (G.clone w0 a.path)).eq [(p!"initialized", .bool true), (p!"commit", .str u.object)]) = true := by
        rw [repoBefore_eq]; simp [hsm]
      refine Post.bind (Post.dry ?_)
      cases hdry : env.dry with
      | true =>
        rw [if_pos rfl]
        refine Post.success hst ?_
        refine ⟨.inr (.inr (.inr (.inl ⟨u, rfl, rfl, hu, fun c hc => ⟨hup c hc, fun h => hsm (by rw [hc, ← h]; rfl)⟩, hchanged, hs1⟩))), calm_same hs1⟩
      | false =>
        simp only [Bool.false_eq_true, if_false]
        cases hc : G.clone w0 a.path with
        | none =>
          simp only [Option.isSome_none, Bool.not_false, if_true]
          have hE : ∀ w', RepoCalm G a (refOf a) false w0 w' := fun w' => ⟨(by intro h; cases h), fun c h => (by rw [hc] at h; cases h)⟩
          refine Post.bind (Post.runAny (fun p out err code w2 hp hx => ⟨hE _, fun hcode => ?_⟩) (hE _))
          subst hcode
          rw [cloneCommand_eq] at hp
          obtain ⟨v, c', k1, k2, k3, k4, k5, k6, k7⟩ := T.freshClone _ _ p _ out err w2 hp hx
          refine Post.bind ((submodules_post T hE).mono ?_ fun _ h => h)
          rintro _ _ w3 ⟨rfl, hw3⟩
          refine Post.success hst ?_
          refine ⟨.inr (.inr (.inr (.inr (.inl ⟨u, c', rfl, rfl, hc, hu, hchanged, hw3.trans k2, fun hne => ?_⟩)))), hE _⟩
          have : G.upstream a.url (a.branchOrTag.getD p!"HEAD") = some u := by
            unfold refOf at hu
            rw [if_neg hne] at hu
            exact hu
          rw [k1] at this
          replace this := Option.some.inj this
          subst this
          exact ⟨k3, k4, k5, fun h => by obtain ⟨b, hb, hb'⟩ := k6 h; exact ⟨b, hb, hb'⟩, k7⟩
        | some c =>
          simp only [Option.isSome_some, Bool.not_true, Bool.false_eq_true, if_false]
          have hcw := same_clone T hs1
          refine Post.bind (Post.run (fun p out err code w2 hp hx => ?_) (calm_same hs1))
          obtain ⟨rfl, hcfg⟩ := T.config p _ out err code w2 hp hx
          have hs2 : Same w0 { w1 with started := p :: w1.started } := same_trans hs1 (same_started _ _)
          generalize hw2 : ({ w1 with started := p :: w1.started } : World) = w2 at hs2 hcfg
          refine ⟨calm_same hs2, fun hcode => ?_⟩
          obtain ⟨c2, hc2, rfl⟩ := hcfg (hcode rfl)
          rw [same_clone T hs2, hc] at hc2
          replace hc2 := Option.some.inj hc2
          subst hc2
          dsimp only
          rw [outputText_word (T.words _ _ hc).2]
          by_cases ho : c.origin = a.url
          · rw [if_neg (by simpa using ho)]
            have hne : c.commit ≠ u.object := fun h => hsm (by rw [hc, ← h]; rfl)
            have hE : ∀ w', RepoCalm G a (refOf a) false w0 w' := by
              intro w'
              refine ⟨(by intro h; cases h), fun c' h => ?_⟩
              rw [hc] at h
              cases h
              refine ⟨fun h => absurd ho h, fun h => ?_, fun u' hu' h => ?_⟩
              · rw [hup c hc] at h; cases h
              · rw [hu] at hu'; cases hu'; exact absurd h hne
            refine Post.bind (Post.runAny (fun p out err code w3 hp hx => ⟨hE _, fun hcode => ?_⟩) (hE _))
            subst hcode
            rw [pullCommand_eq] at hp
            obtain ⟨c0, c', b, v, k1, k2, k3, k4, k5, k6, k7⟩ := T.pull _ _ _ p _ out err w3 hp hx
            rw [T.history, same_clone T hs2, hc] at k1
            replace k1 := Option.some.inj k1
            subst k1
            refine Post.bind ((submodules_post T hE).mono ?_ fun _ h => h)
            rintro _ _ w4 ⟨rfl, hw4⟩
            refine Post.success hst ?_
            rw [ho] at k3
            exact ⟨.inr (.inr (.inr (.inr (.inr ⟨u, c, c', b, v, rfl, rfl, hup c hc, hc, ho, hu, hne, hchanged, k2, k3, hw4.trans k4, k5, k6, k7⟩)))), hE _⟩
          · rw [if_pos (by simpa using ho)]
            refine Post.failure fun r h1 h2 => ⟨.inl ⟨h1, h2, hs2⟩, calm_same hs2⟩

theorem repo_post {a : RepoArgs} (T : GitHost sys G a.path a.url) (hh : HonestStat sys) {check : Bool} :
    Post sys lost (repo a check) env st w
      (fun r _ w' => (check = true → r.success = true) ∧ RepoOutcome G a (refOf a) env.dry w w' r ∧ RepoCalm G a (refOf a) env.dry w w')
      (RepoCalm G a (refOf a) env.dry w) := by
  have hcalm := calm_same (G := G) (a := a) (ref := refOf a) (dry := env.dry) (same_refl w)
  have hfail : ∀ {msg : Str} {st' : St}, Post sys lost (Ops.returned (Script.failure msg)) env st' w
      (fun r st'' w' => RepoCalm G a (refOf a) env.dry w w' ∧ ∀ res, r = some res → (check = true → res.success = true) →
        (check = true → res.success = true) ∧ RepoOutcome G a (refOf a) env.dry w w' res ∧ RepoCalm G a (refOf a) env.dry w w')
      (RepoCalm G a (refOf a) env.dry w) := by
    intro msg st'
    refine Post.returned (Post.failure ?_)
    intro r h1 h2
    refine ⟨hcalm, ?_⟩
    rintro res ⟨⟩ hc
    exact ⟨hc, .inl ⟨h1, h2, same_refl w⟩, hcalm⟩
  unfold repo
  refine Post.operation ?_
  refine Post.bind (Post.ofExcept (fun _ _ => ?_) hcalm)
  refine Post.bind (Post.stat (fun s hs => ?_) hcalm)
  cases s with
  | none =>
    have hnone := stat_none hh hs
    have hcl : G.clone w a.path = none := by
      cases hc : G.clone w a.path with
      | none => rfl
      | some c =>
        obtain ⟨⟨l, n, h, _⟩, _⟩ := T.directory w c hc
        rw [hnone] at h; cases h
    refine Post.bind (Post.initialState rfl rfl ?_)
    refine Post.returned ?_
    have h := repoSettle_post (lost := lost) (env := env) (st := { st with op := { initial := some (repoBefore (G.clone w a.path)) } }) T (same_refl w) rfl rfl rfl
    rw [hcl] at h
    refine Post.mono h ?_ fun _ h => h
    rintro r _ w' ⟨h1, h2⟩
    refine ⟨h2, ?_⟩
    rintro res ⟨⟩ hc
    exact ⟨hc, h1, h2⟩
  | some s =>
    dsimp only
    split
    · refine Post.bind (Post.stat (fun g hg => ?_) hcalm)
      cases g with
      | none => exact hfail
      | some g =>
        dsimp only
        split
        · exact hfail
        · refine Post.bind (Post.run (fun p out err code w1 hp hx => ?_) hcalm)
          obtain ⟨rfl, hrev⟩ := T.revParse p _ out err code w1 hp hx
          have hs1 : Same w { w with started := p :: w.started } := same_started _ _
          refine ⟨calm_same hs1, fun hcode => ?_⟩
          obtain ⟨c, hc, rfl⟩ := hrev (hcode rfl)
          rw [T.history] at hc
          dsimp only
          rw [outputText_word (T.words _ _ hc).1]
          refine Post.bind (Post.initialState rfl rfl ?_)
          refine Post.returned ?_
          have h := repoSettle_post (lost := lost) (env := env) (st := { st with op := { initial := some (repoBefore (G.clone w a.path)) } }) T hs1 rfl rfl rfl
          rw [hc] at h
          refine Post.mono h ?_ fun _ h => h
          rintro r _ w' ⟨h1, h2⟩
          refine ⟨h2, ?_⟩
          rintro res ⟨⟩ hc
          exact ⟨hc, h1, h2⟩
    · exact hfail

end
end Verif.Ops
