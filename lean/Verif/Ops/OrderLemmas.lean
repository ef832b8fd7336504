/-
Lemmas for C103.
-/
import Verif.Ops.OrderSpec
import Verif.Ops.CrowdLemmas
import Verif.Ops.MemoryProps

namespace Verif.Ops

open Script Remote
open Client (Prog direct)
open Wire (Packet)

variable {ι α : Type} {sys : Sys} {I : World → Prop} {A : ι → Packet → Prop}

/-- A connection that does not break. -/
theorem run_unbroken {γ : Type} : ∀ (m : Prog γ) (w : World) (k : Nat),
    (m.run (flaky sys fun _ => none) (w, k)).1 = (m.run (direct sys) w).1 ∧ (m.run (flaky sys fun _ => none) (w, k)).2.1 = (m.run (direct sys) w).2
  | .ret _, _, _ => ⟨rfl, rfl⟩
  | .req p c, w, k => run_unbroken (c (direct sys p w).1) (direct sys p w).2 (k + 1)

theorem run_direct {m : Op α} {env : Env} {st : St} {w : World} : (Process.start m env st fun _ => none).run sys w = exec (direct sys) m env st w := by
  obtain ⟨h1, h2⟩ := run_unbroken (sys := sys) (m env st) w 0
  exact Prod.ext h1 h2

section
variable [DecidableEq ι]

/-- Two runs, the one after the other or the other way round. -/
theorem finish_swap (hn : NoHistory sys) (hx : AllExchangeable sys I A) {i j : ι} (hij : i ≠ j) : ∀ (todo : Prog α) (lost : Nat → Option Bool) (made : Nat) (ps : ι → Process α) (w : World),
    ps i = { todo, lost, made } → (∀ i, (ps i).Asks sys I (A i)) → I w → SameHost (finish sys ps [i, j] w) (finish sys ps [j, i] w)
  | .ret a, lost, made, ps, w, hp, _, _ => by
    have : ∀ v, ((ps i).run sys v).2 = v := fun v => by rw [hp]; rfl
    simp only [finish, this]
    exact .refl _
  | .req q c, lost, made, ps, w, hp, h, hi => by
    have h1 := finish_step hn hx h (j := i) [i, j] w (by simp [hij]) (by simp) hi
    have h2 := finish_step hn hx h (j := i) [j, i] w (by simp [hij.symm]) (by simp) hi
    have hs := stepped_asks h hi i
    have hk := all_keeps hx (h i) hi
    refine h1.trans (SameHost.trans ?_ h2.symm)
    have hst : stepped sys ps i w i = { todo := c (flaky sys lost q (w, made)).1, lost, made := made + 1 } := by
      unfold stepped
      rw [if_pos rfl, hp]
      rfl
    exact finish_swap hn hx hij _ lost (made + 1) _ _ hst hs hk

theorem finish_perm (hn : NoHistory sys) (hx : AllExchangeable sys I A) {ps : ι → Process α} (h : ∀ i, (ps i).Asks sys I (A i)) {o o' : List ι} (hp : o.Perm o') :
    ∀ w, I w → o.Nodup → SameHost (finish sys ps o w) (finish sys ps o' w) := by
  induction hp with
  | nil => exact fun w _ _ => .refl _
  | cons i _ ih => exact fun w hi hd => ih _ (all_run_keeps hx _ _ _ _ (h i) hi) (List.nodup_cons.mp hd).2
  | swap i j l =>
    intro w hi hd
    have hij : j ≠ i := fun e => (List.nodup_cons.mp hd).1 (e ▸ List.mem_cons_self)
    exact finish_same hn ps l (finish_swap hn hx hij _ _ _ ps w rfl h hi)
  | trans hp _ ih ih' => exact fun w hi hd => (ih w hi hd).trans (ih' w hi (hp.nodup_iff.mp hd))

end

theorem pure_inOrder {parts : ι → Op α} (h : ∀ i, PureScript (parts i)) : ∀ order, PureScript (inOrder parts order)
  | [] => .look _ fun _ _ _ _ _ => ⟨.ret (.ok []), rfl, rfl⟩
  | i :: order => .andThen _ _ (h i) fun a => .andThen _ _ (pure_inOrder h order) fun as => .look _ fun _ _ _ _ _ => ⟨.ret (.ok (a :: as)), rfl, rfl⟩

section
variable [DecidableEq ι] {parts : ι → Op α} {env : Env} {st : St}

/-- The first part and the rest. -/
theorem inOrder_cons (hp : ∀ i, PureScript (parts i)) (hs : st.stack ≠ []) {i : ι} {order : List ι} {w : World} {a : α} {sa : St} {wa : World}
    (h : exec (direct sys) (parts i) env st w = ((.ok a, sa), wa)) :
    ∃ before after, sa.shown = st.shown ++ before ∧ (exec (direct sys) (inOrder parts order) env st wa).1.2.shown = st.shown ++ after
      ∧ exec (direct sys) (inOrder parts (i :: order)) env st w
        = (((exec (direct sys) (inOrder parts order) env st wa).1.1.map (a :: ·), { st with shown := st.shown ++ before ++ after }),
          (exec (direct sys) (inOrder parts order) env st wa).2) := by
  have hrest : ∀ st' : St, ∀ v, exec (direct sys) (inOrder parts order >>= fun rest => Op.pure (a :: rest)) env st' v
      = (((exec (direct sys) (inOrder parts order) env st' v).1.1.map (a :: ·), (exec (direct sys) (inOrder parts order) env st' v).1.2),
        (exec (direct sys) (inOrder parts order) env st' v).2) := by
    intro st' v
    rw [exec_bind]
    rcases he : exec (direct sys) (inOrder parts order) env st' v with ⟨⟨_ | x, s⟩, v'⟩ <;> rfl
  obtain ⟨before, after, h1, h2, h3⟩ := C102_as_if_first (direct sys) (parts i) (fun a => inOrder parts order >>= fun rest => Op.pure (a :: rest)) (hp i)
    (fun a => .andThen _ _ (pure_inOrder hp order) fun as => .look _ fun _ _ _ _ _ => ⟨.ret (.ok (a :: as)), rfl, rfl⟩) env st hs w a sa wa h
  rw [hrest] at h2 h3
  exact ⟨before, after, h1, h2, h3⟩

/-- If all parts would succeed alone, they do so one after the other. -/
theorem inOrder_ok (hn : NoHistory sys) (hx : AllExchangeable sys I A) (hp : ∀ i, PureScript (parts i)) (hs : st.stack ≠ [])
    (hA : ∀ i, AsksOnly sys I (A i) (parts i) env st) {printed : ι → List Report} :
    ∀ (order : List ι) (w : World), order.Nodup → I w → (∀ i ∈ order, ∃ a, (exec (direct sys) (parts i) env st w).1.1 = .ok a) →
      (∀ i ∈ order, (exec (direct sys) (parts i) env st w).1.2.shown = st.shown ++ printed i) →
      ∃ rs, exec (direct sys) (inOrder parts order) env st w = ((.ok rs, { st with shown := st.shown ++ order.flatMap printed }),
          finish sys (fun i => Process.start (parts i) env st fun _ => none) order w)
        ∧ rs.map .ok = order.map fun i => (exec (direct sys) (parts i) env st w).1.1
  | [], w, _, _, _, _ => ⟨[], by simp [finish, inOrder, exec_pure], rfl⟩
  | i :: order, w, hd, hi, hok, hsh => by
    obtain ⟨hni, hd⟩ := List.nodup_cons.mp hd
    obtain ⟨a, ha⟩ := hok i List.mem_cons_self
    rcases he : exec (direct sys) (parts i) env st w with ⟨⟨r, sa⟩, wa⟩
    rw [he] at ha
    cases (show r = .ok a from ha)
    have hasks : ∀ j, (Process.start (parts j) env st fun _ => none).Asks sys I (A j) := fun j => asks_start (hA j)
    have hwa : ((Process.start (parts i) env st fun _ => none).run sys w).2 = wa := by rw [run_direct, he]
    have hi' : I wa := by
      rw [← hwa]
      exact all_run_keeps hx _ _ _ _ (hasks i) hi
    have hsame : ∀ j ∈ order, (exec (direct sys) (parts j) env st wa).1 = (exec (direct sys) (parts j) env st w).1 := by
      intro j hj
      have hji : j ≠ i := fun e => hni (e ▸ hj)
      have := run_run hn hx hji (hasks j) _ _ _ w (hasks i) hi
      change ((Process.start (parts j) env st fun _ => none).run sys ((Process.start (parts i) env st fun _ => none).run sys w).2).1 = _ at this
      rw [hwa, run_direct, run_direct] at this
      exact this
    obtain ⟨rs, h1, h2⟩ := inOrder_ok hn hx hp hs hA (printed := printed) order wa hd hi' (fun j hj => by rw [hsame j hj]; exact hok j (List.mem_cons_of_mem _ hj))
      fun j hj => by rw [hsame j hj]; exact hsh j (List.mem_cons_of_mem _ hj)
    obtain ⟨before, after, h3, h4, h5⟩ := inOrder_cons (order := order) hp hs he
    have hb : before = printed i := by
      have := hsh i List.mem_cons_self
      rw [he] at this
      exact List.append_cancel_left (h3.symm.trans this)
    have hafter : after = order.flatMap printed := by
      rw [h1] at h4
      exact (List.append_cancel_left h4).symm
    refine ⟨a :: rs, ?_, ?_⟩
    · rw [h5, h1, hb, hafter]
      simp only [Except.map, List.flatMap_cons, List.append_assoc, finish]
      rw [hwa]
    · rw [List.map_cons, List.map_cons, he, h2]
      congr 1
      exact List.map_congr_left fun j hj => by rw [hsame j hj]

/-- If they succeed one after the other, all would succeed alone. -/
theorem inOrder_each (hn : NoHistory sys) (hx : AllExchangeable sys I A) (hp : ∀ i, PureScript (parts i)) (hs : st.stack ≠ [])
    (hA : ∀ i, AsksOnly sys I (A i) (parts i) env st) :
    ∀ (order : List ι) (w : World), order.Nodup → I w → (∃ rs, (exec (direct sys) (inOrder parts order) env st w).1.1 = .ok rs) →
      ∀ i ∈ order, ∃ a, (exec (direct sys) (parts i) env st w).1.1 = .ok a
  | [], _, _, _, _, _, h => absurd h List.not_mem_nil
  | i :: order, w, hd, hi, hok, j, hj => by
    obtain ⟨hni, hd⟩ := List.nodup_cons.mp hd
    rcases he : exec (direct sys) (parts i) env st w with ⟨⟨r, sa⟩, wa⟩
    cases r with
    | error e =>
      obtain ⟨rs, hok⟩ := hok
      have : exec (direct sys) (inOrder parts (i :: order)) env st w = ((.error e, sa), wa) := exec_bind_of_error he
      rw [this] at hok
      cases hok
    | ok a =>
      have hasks : ∀ j, (Process.start (parts j) env st fun _ => none).Asks sys I (A j) := fun j => asks_start (hA j)
      have hwa : ((Process.start (parts i) env st fun _ => none).run sys w).2 = wa := by rw [run_direct, he]
      have hi' : I wa := by
        rw [← hwa]
        exact all_run_keeps hx _ _ _ _ (hasks i) hi
      obtain ⟨before, after, h3, h4, h5⟩ := inOrder_cons (order := order) hp hs he
      rw [h5] at hok
      have hok' : ∃ rs, (exec (direct sys) (inOrder parts order) env st wa).1.1 = .ok rs := by
        obtain ⟨rs, hok⟩ := hok
        cases hx : (exec (direct sys) (inOrder parts order) env st wa).1.1 with
        | error e => rw [hx] at hok; cases hok
        | ok rs => exact ⟨rs, rfl⟩
      rcases List.mem_cons.mp hj with rfl | hj
      · exact ⟨a, by rw [he]⟩
      · have hji : j ≠ i := fun e => hni (e ▸ hj)
        have := run_run hn hx hji (hasks j) _ _ _ w (hasks i) hi
        change ((Process.start (parts j) env st fun _ => none).run sys ((Process.start (parts i) env st fun _ => none).run sys w).2).1 = _ at this
        rw [hwa, run_direct, run_direct] at this
        rw [← this]
        exact inOrder_each hn hx hp hs hA order wa hd hi' hok' j hj

end

theorem pure_deploy : ∀ (ops : List (Op OpResult)), (∀ op ∈ ops, ∃ opts, Operation opts op) → PureScript (deploy ops)
  | [], _ => .look _ fun _ _ _ _ _ => ⟨.ret (.ok []), rfl, rfl⟩
  | op :: ops, h => by
    obtain ⟨opts, ho⟩ := h op (by simp)
    exact .andThen _ _ (.operation opts _ ho) fun a => .andThen _ _ (pure_deploy ops fun o hm => h o (by simp [hm])) fun as =>
      .look _ fun _ _ _ _ _ => ⟨.ret (.ok (a :: as)), rfl, rfl⟩

theorem store_listed {sha512 : Bytes → Bytes} {mode owner group : Option Str} {op : Op OpResult} {path : Str} {source : Except Exn Bytes}
    (h : Stores sha512 mode owner group true op path source) : ∃ opts, Operation opts op := by
  cases h with
  | content => exact ⟨_, .uploadContent _ _ _ _ _ _ _⟩
  | file => exact ⟨_, .upload _ _ _ _ _ _ _ _⟩
  | templateContent => exact ⟨_, .templateContent _ _ _ _ _ _ _ _ _ _⟩
  | template => exact ⟨_, .template _ _ _ _ _ _ _ _ _ _ _⟩

theorem proper_listed {t : Task} (h : t.Proper sys.sha512) : ∃ opts, Operation opts t.op := by
  cases h with
  | directory => exact ⟨_, .directory _ _ _ _ _ _ _⟩
  | store h => exact store_listed h
  | file => exact ⟨_, .file _ _ _ _ _ _ _⟩
  | link => exact ⟨_, .link _ _ _ _ _ _ _⟩
  | noDirectory => exact ⟨_, .directory _ _ _ _ _ _ _⟩
  | noFile => exact ⟨_, .file _ _ _ _ _ _ _⟩
  | noLink => exact ⟨_, .link _ _ _ _ _ _ _⟩

end Verif.Ops
