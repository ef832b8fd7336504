/-
Lemmas for C104.
-/
import Verif.Run.SplitSpec
import Verif.Run.ProgramLemmas
import Verif.Ops.MemoryProps

namespace Verif.Program

open Script Remote Ops
open Client (Prog direct)
open Client.Lifecycle (OpenEnv State open' exit)

variable {opts : Env} {t : Target} {lk : Luck} {w : World} {sys : Sys}

theorem run_queries {α : Type} : ∀ (m : Prog α) (w : World), (∀ e ∈ recorded (direct sys) m w, Client.isQuery e.1 = true) → (m.run (direct sys) w).2 = w
  | .ret _, _, _ => rfl
  | .req p c, w, h => by
    have h0 : (direct sys p w).2 = w := direct_query p (h (p, (direct sys p w).1) (by simp [recorded]))
    have ih := run_queries (c (direct sys p w).1) (direct sys p w).2 fun e he => h e (by simp [recorded, he])
    exact ih.trans h0

theorem exec_queries {α : Type} {m : Op α} {env : Env} {st : St} (hs : Sends (fun p => Client.isQuery p = true) env m) (hk : Keeps id m) :
    exec (direct sys) m env st w = (((exec (direct sys) m env st w).1.1, st), w) := by
  have hr := runs_recorded (direct sys) (m env st) w
  refine Prod.ext (Prod.ext rfl ?_) ?_
  · exact hk _ _ _ _ _ hr
  · exact run_queries _ _ fun e he => hs _ _ _ _ hr e he

theorem keeps_identity (base : Settings) : Keeps id (resolveIdentity base) := .bind (.call _) fun _ => .bind (.call _) fun _ => .pure' _

theorem asks_identity {env : Env} (base : Settings) : Sends (fun p => Client.isQuery p = true) env (resolveIdentity base) :=
  .bind (.resolveUser (fun _ h => h) _) fun _ => .bind (.resolveGroup (fun _ h => h) _) fun _ => .pure _

/-- Entering the defaults of the script. -/
theorem entering {α : Type} {env : Env} (body : Op α) :
    match (exec (direct sys) (withDefaults {} fun _ => currentDefaults) env { stack := [{}] } w).1.1 with
    | .error x => exec (direct sys) (withDefaults {} fun _ => body) env { stack := [{}] } w = ((.error x, { stack := [{}] }), w)
    | .ok s => exec (direct sys) (withDefaults {} fun _ => body) env { stack := [{}] } w
        = (((exec (direct sys) body env { stack := [s, {}] } w).1.1, { (exec (direct sys) body env { stack := [s, {}] } w).1.2 with
            stack := (exec (direct sys) body env { stack := [s, {}] } w).1.2.stack.tail }), (exec (direct sys) body env { stack := [s, {}] } w).2) := by
  have hd : ∀ {β : Type} (body : Op β), exec (direct sys) (withDefaults {} fun _ => body) env { stack := [{}] } w
      = exec (direct sys) (resolveDefaults ((env.base.overlay {}).overlay {}) >>= fun r => push r >>= fun _ =>
          Op.finally_ body fun st => { st with stack := st.stack.tail }) env { stack := [{}] } w := fun _ => rfl
  have he := exec_queries (sys := sys) (w := w) (st := { stack := [{}] }) (Sends.resolveDefaults (env := env) (fun _ h => h) ((env.base.overlay {}).overlay {})) (keeps_resolveDefaults _)
  rw [hd, hd, exec_bind, exec_bind, he]
  generalize (exec (direct sys) (resolveDefaults ((env.base.overlay {}).overlay {})) env { stack := [{}] } w).1.1 = x
  cases x with
  | error e => rfl
  | ok s =>
    have hf : ∀ {β : Type} (body : Op β), exec (direct sys) (push s >>= fun _ => Op.finally_ body fun st => { st with stack := st.stack.tail }) env { stack := [{}] } w
        = (((exec (direct sys) body env { stack := [s, {}] } w).1.1, { (exec (direct sys) body env { stack := [s, {}] } w).1.2 with
            stack := (exec (direct sys) body env { stack := [s, {}] } w).1.2.stack.tail }), (exec (direct sys) body env { stack := [s, {}] } w).2) := by
      intro β body
      exact (Prog.run_bind (direct sys) (body env { stack := [s, {}] }) (fun x => Prog.ret (x.1, { x.2 with stack := x.2.stack.tail })) w).trans rfl
    dsimp only
    rw [hf, hf]
    rfl

/-- A session over a connection that works. -/
theorem session_working (hg : Working lk) :
    match beginning opts t w with
    | .error e => (session opts t lk w).1 = .error e ∧ (session opts t lk w).2.2 = (w, [])
    | .ok (base, s) =>
      (session opts t lk w).1 = (exec (direct t.sys) (deploy t.script) { opts with base } { stack := [s, {}] } w).1.1
      ∧ (session opts t lk w).2.2 = ((exec (direct t.sys) (deploy t.script) { opts with base } { stack := [s, {}] } w).2,
          (exec (direct t.sys) (deploy t.script) { opts with base } { stack := [s, {}] } w).1.2.shown) := by
  have ho : open' lk.opening State.fresh = (.ok (), { isOpen := true, process := true, running := true, pipeOpen := true, lost := 0, hostConnection := false }) := by
    unfold open'
    rw [hg.popen, hg.alive]
    simp [hg.stays, State.fresh, State.background]
  have hid := exec_queries (sys := t.sys) (w := w) (st := { stack := [] }) (asks_identity (env := opts) t.base) (keeps_identity t.base)
  unfold session beginning
  rw [ho]
  dsimp only
  rw [if_neg (by rw [hg.lives]; decide)]
  obtain ⟨k, hk⟩ := exec_unbroken (lost := lk.lost) (k := 0) hg.unbroken hid
  rw [hk]
  generalize (exec (direct t.sys) (resolveIdentity t.base) opts { stack := [] } w).1.1 = x
  cases x with
  | error e => exact ⟨rfl, rfl⟩
  | ok base =>
    dsimp only
    have hen := entering (sys := t.sys) (w := w) (env := { opts with base }) (deploy t.script)
    have hrun : ∀ x st' v, exec (direct t.sys) (runCmdline t.script) { opts with base } { stack := [{}] } w = ((x, st'), v) →
        ∃ k', exec (flaky t.sys lk.lost) (runCmdline t.script) { opts with base } { stack := [{}] } (w, k) = ((x, st'), (v, k')) :=
      fun x st' v h => exec_unbroken hg.unbroken h
    generalize (exec (direct t.sys) (withDefaults {} fun _ => currentDefaults) { opts with base } { stack := [{}] } w).1.1 = y at hen
    cases y with
    | error e =>
      obtain ⟨k', h⟩ := hrun _ _ _ hen
      rw [h]
      exact ⟨rfl, rfl⟩
    | ok s =>
      obtain ⟨k', h⟩ := hrun _ _ _ hen
      rw [h]
      exact ⟨rfl, rfl⟩

theorem pure_deploy_list : ∀ (ops : List (Op OpResult)), (∀ op ∈ ops, PureScript op) → PureScript (deploy ops)
  | [], _ => .look _ (fun _ _ _ _ _ => ⟨.ret (.ok []), rfl, rfl⟩)
  | op :: ops, h => .andThen _ _ (h op (by simp)) fun r => .andThen _ _ (pure_deploy_list ops fun x hx => h x (by simp [hx]))
      fun rs => .look _ (fun _ _ _ _ _ => ⟨.ret (.ok (r :: rs)), rfl, rfl⟩)

theorem exec_deploy_append {env : Env} : ∀ (a b : List (Op OpResult)) (st : St) (w : World),
    exec (direct sys) (deploy (a ++ b)) env st w
      = exec (direct sys) (deploy a >>= fun ra => deploy b >>= fun rb => Op.pure (ra ++ rb)) env st w
  | [], b, st, w => by
    show exec (direct sys) (deploy b) env st w = exec (direct sys) (deploy b >>= fun rb => Op.pure rb) env st w
    rw [exec_bind]
    generalize exec (direct sys) (deploy b) env st w = x
    obtain ⟨⟨r, st'⟩, w'⟩ := x
    cases r <;> rfl
  | op :: a, b, st, w => by
    have h1 : exec (direct sys) (deploy (op :: a ++ b)) env st w = exec (direct sys) (op >>= fun r => deploy (a ++ b) >>= fun rs => Op.pure (r :: rs)) env st w := rfl
    have h2 : deploy (op :: a) = (op >>= fun r => deploy a >>= fun rs => Op.pure (r :: rs)) := rfl
    rw [h1, h2, exec_bind, exec_bind, exec_bind]
    generalize exec (direct sys) op env st w = x
    obtain ⟨⟨r, st1⟩, w1⟩ := x
    cases r with
    | error e => rfl
    | ok r =>
      dsimp only
      rw [exec_bind, exec_bind, exec_deploy_append a b, exec_bind]
      generalize exec (direct sys) (deploy a) env st1 w1 = y
      obtain ⟨⟨ra, st2⟩, w2⟩ := y
      cases ra with
      | error e => rfl
      | ok ra =>
        dsimp only
        rw [exec_pure]
        dsimp only
        rw [exec_bind, exec_bind]
        generalize exec (direct sys) (deploy b) env st2 w2 = z
        obtain ⟨⟨rb, st3⟩, w3⟩ := z
        cases rb <;> rfl

theorem session_split {a b : List (Op OpResult)} {lj la lb : Luck} (hj : Working lj) (ha : Working la) (hb : Working lb)
    (hpa : ∀ op ∈ a, PureScript op) (hpb : ∀ op ∈ b, PureScript op)
    (hbeg : beginning opts t (session opts (t.running a) la w).2.2.1 = beginning opts t w) :
    match (session opts (t.running a) la w).1 with
    | .error e => (session opts (t.running (a ++ b)) lj w).1 = .error e ∧ (session opts (t.running (a ++ b)) lj w).2.2 = (session opts (t.running a) la w).2.2
    | .ok ra =>
      (session opts (t.running (a ++ b)) lj w).1 = (session opts (t.running b) lb (session opts (t.running a) la w).2.2.1).1.map (ra ++ ·)
      ∧ (session opts (t.running (a ++ b)) lj w).2.2 = ((session opts (t.running b) lb (session opts (t.running a) la w).2.2.1).2.2.1,
          (session opts (t.running a) la w).2.2.2 ++ (session opts (t.running b) lb (session opts (t.running a) la w).2.2.1).2.2.2) := by
  have sj := session_working (opts := opts) (t := t.running (a ++ b)) (w := w) hj
  have sa := session_working (opts := opts) (t := t.running a) (w := w) ha
  have sb := session_working (opts := opts) (t := t.running b) (w := (session opts (t.running a) la w).2.2.1) hb
  have e1 : ∀ ops v, beginning opts (t.running ops) v = beginning opts t v := fun _ _ => rfl
  rw [e1] at sj sa sb
  rw [hbeg] at sb
  revert sj sa sb
  generalize session opts (t.running (a ++ b)) lj w = J
  generalize session opts (t.running a) la w = A
  generalize session opts (t.running b) lb A.2.2.1 = B
  cases beginning opts t w with
  | error e =>
    intro sj sa _
    dsimp only at sj sa ⊢
    rw [sa.1]
    exact ⟨sj.1, sj.2.trans sa.2.symm⟩
  | ok p =>
    obtain ⟨base, s⟩ := p
    intro sj sa sb
    dsimp only [Target.running] at sj sa sb ⊢
    rw [exec_deploy_append] at sj
    have hf := C102_as_if_first (direct t.sys) (deploy a) (fun ra => deploy b >>= fun rb => Op.pure (ra ++ rb)) (pure_deploy_list a hpa)
      (fun ra => .andThen _ _ (pure_deploy_list b hpb) fun rb => .look _ (fun _ _ _ _ _ => ⟨.ret (.ok (ra ++ rb)), rfl, rfl⟩))
      { opts with base } { stack := [s, {}] } nofun w
    revert sa sj hf
    cases hx : exec (direct t.sys) (deploy a) { opts with base } { stack := [s, {}] } w with
    | mk x w1 =>
      obtain ⟨r, st1⟩ := x
      intro sj sa hf
      cases r with
      | error e =>
        rw [exec_bind, hx] at sj
        rw [sa.1]
        exact ⟨sj.1, sj.2.trans sa.2.symm⟩
      | ok ra =>
        obtain ⟨before, after, h1, h2, h3⟩ := hf ra st1 w1 rfl
        rw [h3] at sj
        have hw1 : A.2.2.1 = w1 := by rw [sa.2]
        rw [hw1] at sb
        rw [exec_bind] at h2 sj
        dsimp only at sa
        rw [sa.1]
        cases hy : exec (direct t.sys) (deploy b) { opts with base } { stack := [s, {}] } w1 with
        | mk y w2 =>
          obtain ⟨rb, st2⟩ := y
          rw [hy] at sb h2 sj
          have hsa : A.2.2.2 = before := by rw [sa.2]; simpa using h1
          have hsb : B.2.2.2 = st2.shown := by rw [sb.2]
          have hwb : B.2.2.1 = w2 := by rw [sb.2]
          dsimp only
          rw [sb.1, sj.1, sj.2, hsa, hsb, hwb]
          cases rb with
          | error e =>
            have h2' : st2.shown = [] ++ after := h2
            exact ⟨rfl, by rw [h2']; rfl⟩
          | ok rb =>
            have h2' : st2.shown = [] ++ after := h2
            exact ⟨rfl, by rw [h2']; rfl⟩

/-! ### The loop -/

/-- The loop comes to its end if and only if every session does. -/
theorem runHosts_finished : ∀ (hs : List Str) (f : Fleet) (targets : Str → Target) (luck : Str → Luck), hs.Nodup →
    ((Run.runHosts (round opts targets luck) hs f).1 = .finished ↔ ∀ h ∈ hs, ∃ rs, (session opts (targets h) (luck h) (f.hosts h)).1 = .ok rs)
  | [], _, _, _, _ => by simp [Run.runHosts]
  | h :: hs, f, targets, luck, hnd => by
    rw [List.nodup_cons] at hnd
    unfold Run.runHosts
    cases hr : (session opts (targets h) (luck h) (f.hosts h)).1 with
    | error e =>
      have he : (round opts targets luck h f).1 = .error { kind := e } := by unfold round; simp only [hr]
      generalize round opts targets luck h f = x at he
      obtain ⟨_, _⟩ := x
      cases he
      exact ⟨nofun, fun hc => by obtain ⟨rs, h'⟩ := hc h (by simp); rw [hr] at h'; cases h'⟩
    | ok rs =>
      have he : (round opts targets luck h f).1 = .ok () := by unfold round; simp only [hr]
      have hh : ∀ x, x ≠ h → (round opts targets luck h f).2.hosts x = f.hosts x := by
        intro x hx
        unfold round
        simp only [hr, if_neg hx]
      generalize round opts targets luck h f = x at he hh
      obtain ⟨_, g⟩ := x
      cases he
      have ih := runHosts_finished hs g targets luck hnd.2
      dsimp only
      rw [ih]
      constructor
      · intro hc x hx
        rcases List.mem_cons.mp hx with rfl | hx
        · exact ⟨rs, hr⟩
        · have := hc x hx
          rwa [show g.hosts x = f.hosts x from hh x fun hc => hnd.1 (hc ▸ hx)] at this
      · intro hc x hx
        rw [show g.hosts x = f.hosts x from hh x fun hc => hnd.1 (hc ▸ hx)]
        exact hc x (by simp [hx])

/-- Otherwise it has started with a host whose session failed. -/
theorem runHosts_stopped : ∀ (hs : List Str) (f : Fleet) (targets : Str → Target) (luck : Str → Luck), hs.Nodup →
    (Run.runHosts (round opts targets luck) hs f).1 = .finished
    ∨ ∃ h ∈ (Run.runHosts (round opts targets luck) hs f).2.1, h ∈ hs ∧ ∃ e, (session opts (targets h) (luck h) (f.hosts h)).1 = .error e
  | [], _, _, _, _ => .inl rfl
  | h :: hs, f, targets, luck, hnd => by
    rw [List.nodup_cons] at hnd
    unfold Run.runHosts
    cases hr : (session opts (targets h) (luck h) (f.hosts h)).1 with
    | error e =>
      have he : (round opts targets luck h f).1 = .error { kind := e } := by unfold round; simp only [hr]
      generalize round opts targets luck h f = x at he
      obtain ⟨_, _⟩ := x
      cases he
      exact .inr ⟨h, by simp, by simp, e, hr⟩
    | ok rs =>
      have he : (round opts targets luck h f).1 = .ok () := by unfold round; simp only [hr]
      have hh : ∀ x, x ≠ h → (round opts targets luck h f).2.hosts x = f.hosts x := by
        intro x hx
        unfold round
        simp only [hr, if_neg hx]
      generalize round opts targets luck h f = x at he hh
      obtain ⟨_, g⟩ := x
      cases he
      rcases runHosts_stopped hs g targets luck hnd.2 with ih | ⟨x, hx, hx', e, he⟩
      · exact .inl ih
      · rw [show g.hosts x = f.hosts x from hh x fun hc => hnd.1 (hc ▸ hx')] at he
        exact .inr ⟨x, by simp [hx], by simp [hx'], e, he⟩

theorem zip_results (ka kb kj : Str → List OpResult) : ∀ (hs : List Str), (∀ h ∈ hs, kj h = ka h ++ kb h) →
    hs.map (fun h => (h, kj h)) = List.zipWith (fun x y => (x.1, x.2 ++ y.2)) (hs.map fun h => (h, ka h)) (hs.map fun h => (h, kb h))
  | [], _ => rfl
  | h :: hs, hk => by
    simp only [List.map_cons, List.zipWith_cons_cons]
    rw [hk h (by simp), zip_results ka kb kj hs fun x hx => hk x (by simp [hx])]

/-- The results of a script that came to its end. -/
def returned : Except Exn (List OpResult) → List OpResult
  | .ok rs => rs
  | .error _ => []

theorem results_of {targets : Str → Target} {luck : Str → Luck} {hosts : Str → World} : ∀ (l : List (Str × List OpResult)),
    (∀ p ∈ l, (session opts (targets p.1) (luck p.1) (hosts p.1)).1 = .ok p.2) →
    l = (l.map (·.1)).map fun h => (h, returned (session opts (targets h) (luck h) (hosts h)).1)
  | [], _ => rfl
  | p :: l, h => by
    have ih := results_of l fun q hq => h q (by simp [hq])
    simp only [List.map_cons]
    rw [h p (by simp)]
    exact congrArg (p :: ·) ih

end Verif.Program
