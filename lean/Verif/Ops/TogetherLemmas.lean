import Verif.Ops.TogetherSpec
import Verif.Ops.LookLemmas
import Verif.Ops.ScriptedLemmas
import Verif.Ops.EchoLemmas

namespace Verif.Ops

open Script Remote
open Client (Prog direct)
open Wire (Packet)

variable {α β : Type} {sys : Sys}

theorem SameHost.refl (w : World) : SameHost w w := ⟨w.started, rfl⟩

theorem SameHost.symm {w w' : World} : SameHost w w' → SameHost w' w := by
  rintro ⟨l, rfl⟩
  exact ⟨w.started, rfl⟩

theorem SameHost.trans {w w' w'' : World} : SameHost w w' → SameHost w' w'' → SameHost w w'' := by
  rintro ⟨l, rfl⟩ ⟨l', rfl⟩
  exact ⟨l', rfl⟩

/-! ### The history of processes -/

theorem guard_history (hn : NoHistory sys) (w : World) (l : List Proc) (path : Str) (c : Remote.Call) :
    guardCall sys { w with started := l } path c = guardCall sys w path c := by
  unfold guardCall
  rw [hn.fault]

theorem stat_history (hn : NoHistory sys) (w : World) (l : List Proc) (path : Str) (fo : Bool) :
    osStat sys { w with started := l } path fo = osStat sys w path fo := by
  unfold osStat
  rw [guard_history hn]

theorem read_history (hn : NoHistory sys) (w : World) (l : List Proc) (path : Str) : osRead sys { w with started := l } path = osRead sys w path := by
  unfold osRead
  rw [guard_history hn, hn.fault]

theorem chdir_history (hn : NoHistory sys) (w : World) (l : List Proc) (c : Loc) (path : Str) :
    osChdir sys { w with started := l } c path = osChdir sys w c path := by
  unfold osChdir
  simp only [guard_history hn, hn.fault]

theorem write_history (hn : NoHistory sys) (w : World) (l : List Proc) (path : Str) (c : Bytes) :
    (osWrite sys { w with started := l } path c).1 = (osWrite sys w path c).1
    ∧ (osWrite sys { w with started := l } path c).2 = { (osWrite sys w path c).2 with started := l } := by
  unfold osWrite
  rw [guard_history hn, hn.fault, hn.written]
  cases guardCall sys w path (.openWrite path) with
  | error e => exact ⟨rfl, rfl⟩
  | ok _ =>
    simp only
    cases resolve w.fs w.cwd path true with
    | error e => exact ⟨rfl, rfl⟩
    | ok x =>
      simp only
      cases w.fs x with
      | none => simp only; cases sys.fault w (.write path) <;> exact ⟨rfl, rfl⟩
      | some n => dsimp only; cases n.kind <;> dsimp only <;> first | exact ⟨rfl, rfl⟩ | (cases sys.fault w (.write path) <;> exact ⟨rfl, rfl⟩)

theorem chmod_history (hn : NoHistory sys) (w : World) (l : List Proc) (path : Str) (m : Int) :
    (osChmod sys { w with started := l } path m).1 = (osChmod sys w path m).1
    ∧ (osChmod sys { w with started := l } path m).2 = { (osChmod sys w path m).2 with started := l } := by
  unfold osChmod
  rw [guard_history hn]
  cases fitsCInt m with
  | false => exact ⟨rfl, rfl⟩
  | true =>
    cases guardCall sys w path (.chmod path) with
    | error e => exact ⟨rfl, rfl⟩
    | ok _ =>
      simp only
      cases lookup w.fs w.cwd path true with
      | error e => exact ⟨rfl, rfl⟩
      | ok x => exact ⟨rfl, rfl⟩

theorem chown_history (hn : NoHistory sys) (w : World) (l : List Proc) (path : Str) (u g : Nat) :
    (osChown sys { w with started := l } path u g).1 = (osChown sys w path u g).1
    ∧ (osChown sys { w with started := l } path u g).2 = { (osChown sys w path u g).2 with started := l } := by
  unfold osChown
  rw [guard_history hn]
  cases guardCall sys w path (.chown path) with
  | error e => exact ⟨rfl, rfl⟩
  | ok _ =>
    simp only
    cases lookup w.fs w.cwd path true with
    | error e => exact ⟨rfl, rfl⟩
    | ok x => exact ⟨rfl, rfl⟩

theorem upload_history (hn : NoHistory sys) (w : World) (l : List Proc) (file : Str) (c : Bytes) (m : Option Int) (u g : Option Nat) :
    (doUpload sys file c m u g { w with started := l }).1 = (doUpload sys file c m u g w).1
    ∧ (doUpload sys file c m u g { w with started := l }).2 = { (doUpload sys file c m u g w).2 with started := l } := by
  unfold doUpload
  obtain ⟨h1, h2⟩ := write_history hn w l file c
  generalize osWrite sys { w with started := l } file c = a at h1 h2
  obtain ⟨a1, a2⟩ := a
  generalize osWrite sys w file c = b at h1 h2
  obtain ⟨b1, b2⟩ := b
  dsimp only at h1 h2
  subst h1 h2
  cases a1 with
  | error e => exact ⟨rfl, rfl⟩
  | ok _ =>
    simp only
    have fin : ∀ v : World,
        (match (if (u.isSome || g.isSome) = true then osChown sys { v with started := l } file (u.getD 0) (g.getD 0) else (.ok (), { v with started := l })) with
          | (.error e, w3) => (Reply.raise e, w3)
          | (.ok _, w3) => (Reply.answer [] .ok, w3)).1
        = (match (if (u.isSome || g.isSome) = true then osChown sys v file (u.getD 0) (g.getD 0) else (.ok (), v)) with
          | (.error e, w3) => (Reply.raise e, w3)
          | (.ok _, w3) => (Reply.answer [] .ok, w3)).1
        ∧ (match (if (u.isSome || g.isSome) = true then osChown sys { v with started := l } file (u.getD 0) (g.getD 0) else (.ok (), { v with started := l })) with
          | (.error e, w3) => (Reply.raise e, w3)
          | (.ok _, w3) => (Reply.answer [] .ok, w3)).2
        = { (match (if (u.isSome || g.isSome) = true then osChown sys v file (u.getD 0) (g.getD 0) else (.ok (), v)) with
          | (.error e, w3) => (Reply.raise e, w3)
          | (.ok _, w3) => (Reply.answer [] .ok, w3)).2 with started := l } := by
      intro v
      by_cases hc : (u.isSome || g.isSome) = true
      · rw [if_pos hc, if_pos hc]
        obtain ⟨h1, h2⟩ := chown_history hn v l file (u.getD 0) (g.getD 0)
        generalize osChown sys { v with started := l } file (u.getD 0) (g.getD 0) = a at h1 h2
        obtain ⟨a1, a2⟩ := a
        generalize osChown sys v file (u.getD 0) (g.getD 0) = b at h1 h2
        obtain ⟨b1, b2⟩ := b
        dsimp only at h1 h2
        subst h1 h2
        cases a1 <;> exact ⟨rfl, rfl⟩
      · rw [if_neg hc, if_neg hc]
        exact ⟨rfl, rfl⟩
    cases m with
    | none => exact fin b2
    | some m =>
      simp only
      obtain ⟨h1, h2⟩ := chmod_history hn b2 l file m
      generalize osChmod sys { b2 with started := l } file m = a at h1 h2
      obtain ⟨a1, a2⟩ := a
      generalize osChmod sys b2 file m = b at h1 h2
      obtain ⟨b1, b2⟩ := b
      dsimp only at h1 h2
      subst h1 h2
      cases a1 with
      | error e => exact ⟨rfl, rfl⟩
      | ok _ => exact fin b2

theorem plan_history (hn : NoHistory sys) (w : World) (l : List Proc) (command : List Str) (stdin : Option Bytes) (capture : Bool) (user group umask cwd : Option Str) :
    Client.plan sys command stdin capture user group umask cwd { w with started := l } = Client.plan sys command stdin capture user group umask cwd w := by
  unfold Client.plan
  have h1 : ∀ c, osIsdir sys { w with started := l } c = osIsdir sys w c := fun c => by unfold osIsdir; rw [stat_history hn]
  have h2 : ∀ um u g, startChild sys { w with started := l } cwd um u g = startChild sys w cwd um u g := by
    intro um u g
    unfold startChild
    have : ∀ c, osChdir sys { w with started := l } c = osChdir sys w c := fun c => funext fun p => chdir_history hn w l c p
    rw [this]
    simp only [this]
    rfl
  simp only [h1, h2]
  rfl

/-- Neither the answer to a request nor its effect depends on the history of processes. -/
theorem handle_history (hn : NoHistory sys) (p : Packet) (w : World) (l : List Proc) :
    (handle sys p { w with started := l }).1 = (handle sys p w).1 ∧ SameHost (handle sys p w).2 (handle sys p { w with started := l }).2 := by
  cases p with
  | processRun command stdin capture user group umask cwd =>
    show (handleRun sys command stdin capture user group umask cwd { w with started := l }).1 = (handleRun sys command stdin capture user group umask cwd w).1
      ∧ SameHost (handleRun sys command stdin capture user group umask cwd w).2 (handleRun sys command stdin capture user group umask cwd { w with started := l }).2
    rw [Client.handleRun_eq, Client.handleRun_eq, plan_history hn]
    cases Client.plan sys command stdin capture user group umask cwd w with
    | error r => exact ⟨rfl, ⟨l, rfl⟩⟩
    | ok proc =>
      simp only
      have h1 := hn.exec proc w (proc :: l)
      have h2 := hn.exec proc w (proc :: w.started)
      have h3 := h1.1.trans h2.1.symm
      have h4 := h2.2.symm.trans h1.2
      revert h3 h4
      clear h1 h2
      generalize sys.exec proc { w with started := proc :: l } = a
      generalize sys.exec proc { w with started := proc :: w.started } = b
      obtain ⟨a1, a2⟩ := a
      obtain ⟨b1, b2⟩ := b
      intro h3 h4
      dsimp only at h3 h4
      subst h3
      cases a1 with
      | failed e => exact ⟨rfl, ⟨l, rfl⟩⟩
      | done o e c => cases capture <;> exact ⟨rfl, h4⟩
  | stat path fo sha =>
    refine ⟨?_, ?_⟩
    · simp only [handle, handleStat]
      rw [stat_history hn]
      cases osStat sys w path fo with
      | error e => simp only; cases isENOENT e <;> rfl
      | ok s =>
        simp only
        rw [show osRead sys { w with started := l } = osRead sys w from funext fun p => read_history hn w l p]
        cases (if (sha && ftype s.stMode == p!"file") = true then Remote.optional (osRead sys w) (some path) else .ok none) <;> rfl
    · rw [Client.C15_query_changes_nothing sys _ _ rfl, Client.C15_query_changes_nothing sys _ _ rfl]
      exact ⟨l, rfl⟩
  | upload file content mode owner group =>
    simp only [handle, handleUpload]
    rw [show resolveUser { w with started := l } = resolveUser w from rfl, show resolveGroup { w with started := l } = resolveGroup w from rfl]
    cases Remote.optional resolveOct mode with
    | error e => exact ⟨rfl, ⟨l, rfl⟩⟩
    | ok m =>
      simp only
      cases Remote.optional (resolveUser w) owner with
      | error e => exact ⟨rfl, ⟨l, rfl⟩⟩
      | ok u =>
        simp only
        cases Remote.optional (resolveGroup w) group with
        | error e => exact ⟨rfl, ⟨l, rfl⟩⟩
        | ok g =>
          obtain ⟨h1, h2⟩ := upload_history hn w l file content m (u.map (·.1)) (pickGid g u)
          exact ⟨h1, ⟨l, h2⟩⟩
  | download file =>
    refine ⟨?_, ?_⟩
    · simp only [handle, handleDownload]
      rw [read_history hn]
      cases osRead sys w file with
      | error e => simp only; cases isENOENT e <;> rfl
      | ok c => rfl
    · rw [Client.C15_query_changes_nothing sys _ _ rfl, Client.C15_query_changes_nothing sys _ _ rfl]
      exact ⟨l, rfl⟩
  | resolveUser user =>
    refine ⟨?_, by rw [Client.C15_query_changes_nothing sys _ _ rfl, Client.C15_query_changes_nothing sys _ _ rfl]; exact ⟨l, rfl⟩⟩
    simp only [handle, handleResolveUser]
    rw [show getpwnam { w with started := l } = getpwnam w from rfl, show getpwuid { w with started := l } = getpwuid w from rfl]
    cases getpwnam w (user.getD (Py.natStr 10 w.uid)) with
    | ok _ => rfl
    | error e =>
      cases e <;> try rfl
      simp only
      cases Py.parseInt 10 (user.getD (Py.natStr 10 w.uid)) with
      | none => rfl
      | some i => simp only; cases getpwuid w i <;> rfl
  | resolveGroup group =>
    refine ⟨?_, by rw [Client.C15_query_changes_nothing sys _ _ rfl, Client.C15_query_changes_nothing sys _ _ rfl]; exact ⟨l, rfl⟩⟩
    simp only [handle, handleResolveGroup]
    rw [show getgrnam { w with started := l } = getgrnam w from rfl, show getgrgid { w with started := l } = getgrgid w from rfl]
    cases getgrnam w (group.getD (Py.natStr 10 w.gid)) with
    | ok _ => rfl
    | error e =>
      cases e <;> try rfl
      simp only
      cases Py.parseInt 10 (group.getD (Py.natStr 10 w.gid)) with
      | none => rfl
      | some i => simp only; cases getgrgid w i <;> rfl
  | queryUser user hash =>
    refine ⟨?_, by rw [Client.C15_query_changes_nothing sys _ _ rfl, Client.C15_query_changes_nothing sys _ _ rfl]; exact ⟨l, rfl⟩⟩
    simp only [handle, handleQueryUser]
    rw [show getpwnam { w with started := l } = getpwnam w from rfl, show getpwuid { w with started := l } = getpwuid w from rfl]
    have he : ∀ pw, (userEntry pw hash { w with started := l }).1 = (userEntry pw hash w).1 := by
      intro pw
      unfold userEntry
      rw [show getspnam { w with started := l } = getspnam w from rfl, show getgrgid { w with started := l } = getgrgid w from rfl]
      generalize (if hash then Remote.optional (getspnam w) (some pw.name) else .ok none) = x
      cases x with
      | error e => cases e <;> rfl
      | ok h => simp only; cases getgrgid w pw.gid <;> rfl
    cases getpwnam w user with
    | ok pw => exact he pw
    | error e =>
      cases e <;> try rfl
      simp only
      cases Py.parseInt 10 user with
      | none => rfl
      | some i => simp only; cases getpwuid w i <;> first | rfl | exact he _
  | queryGroup group =>
    refine ⟨?_, by rw [Client.C15_query_changes_nothing sys _ _ rfl, Client.C15_query_changes_nothing sys _ _ rfl]; exact ⟨l, rfl⟩⟩
    simp only [handle, handleQueryGroup]
    rw [show getgrnam { w with started := l } = getgrnam w from rfl, show getgrgid { w with started := l } = getgrgid w from rfl]
    cases getgrnam w (group) with
    | ok _ => rfl
    | error e =>
      cases e <;> try rfl
      simp only
      cases Py.parseInt 10 (group) with
      | none => rfl
      | some i => simp only; cases getgrgid w i <;> rfl
  | _ => exact ⟨rfl, ⟨l, rfl⟩⟩

theorem direct_history (hn : NoHistory sys) (p : Packet) (w : World) (l : List Proc) :
    (direct sys p { w with started := l }).1 = (direct sys p w).1 ∧ SameHost (direct sys p w).2 (direct sys p { w with started := l }).2 := by
  obtain ⟨h1, h2⟩ := handle_history hn p w l
  exact ⟨direct_reply h1, by rw [Client.direct_world, Client.direct_world]; exact h2⟩

/-! #### Standard tools -/

/-- What the environment decides about the tools does not depend on the history of processes. -/
structure ToolsForget (o : Tools) : Prop where
  missing : ∀ p w started, o.missing p { w with started } = o.missing p w
  fault : ∀ p w i started, o.fault p { w with started } i = o.fault p w i
  kept : ∀ p w started, o.kept p { w with started } = o.kept p w
  copied : ∀ p w started, o.copied p { w with started } = o.copied p w
  says : ∀ p w started, o.says p { w with started } = o.says p w
  ownerSpec : ∀ s w started, o.ownerSpec s { w with started } = o.ownerSpec s w
  other : ∀ p w started, (o.other p { w with started }).1 = (o.other p w).1 ∧ SameHost (o.other p w).2 (o.other p { w with started }).2

/-- The same answer and effect but for the history of processes. -/
def Unaware (l : List Proc) (a b : ExecRes × World) : Prop := a.1 = b.1 ∧ ∃ l', a.2 = { b.2 with started := l' }

theorem Unaware.broken {l : List Proc} {m : Bytes} {w : World} : Unaware l (Remote.broken m { w with started := l }) (Remote.broken m w) := ⟨rfl, ⟨l, rfl⟩⟩

theorem Unaware.fine {l : List Proc} {w : World} : Unaware l (Remote.fine { w with started := l }) (Remote.fine w) := ⟨rfl, ⟨l, rfl⟩⟩

theorem tool_history {o : Tools} (h : ToolsForget o) (p : Proc) (w : World) (l : List Proc) (t : Tool) :
    Unaware l (runTool o p { w with started := l } t) (runTool o p w t) := by
  have hu : ∀ x, Unaware l (unlinkAt o p { w with started := l } x) (unlinkAt o p w x) := by
    intro x
    unfold unlinkAt
    rw [h.fault]
    cases o.fault p w 0 <;> exact ⟨rfl, ⟨l, rfl⟩⟩
  have ho : Unaware l (o.other p { w with started := l }) (o.other p w) := ⟨(h.other p w l).1, (h.other p w l).2⟩
  cases t with
  | mkdir path =>
    show Unaware l (runMkdir o p _ path) (runMkdir o p w path)
    unfold runMkdir
    simp only [h.says, h.fault]
    cases resolve w.fs p.cwd path false with
    | error e => exact .broken
    | ok x =>
      simp only
      cases w.fs x with
      | some n => exact .broken
      | none => simp only; cases o.fault p w 0 <;> exact ⟨rfl, ⟨l, rfl⟩⟩
  | chmod mode path =>
    show Unaware l (runChmod o p _ mode path) (runChmod o p w mode path)
    unfold runChmod
    simp only [h.says, h.fault]
    cases lookup w.fs p.cwd path true with
    | error e => exact .broken
    | ok x =>
      obtain ⟨x, n⟩ := x
      simp only
      cases chmodBits o p mode n with
      | none => exact .broken
      | some b => simp only; cases o.fault p w 0 <;> exact ⟨rfl, ⟨l, rfl⟩⟩
  | chown spec path follow =>
    show Unaware l (runChown o p _ spec path follow) (runChown o p w spec path follow)
    have hc : chownIds o { w with started := l } spec = chownIds o w spec := by
      unfold chownIds
      rw [h.ownerSpec]
      rfl
    unfold runChown
    simp only [h.says, h.fault, hc]
    cases lookup w.fs p.cwd path follow with
    | error e => exact .broken
    | ok x =>
      obtain ⟨x, n⟩ := x
      simp only
      cases chownIds o w spec with
      | none => exact .broken
      | some b => simp only; cases o.fault p w 0 <;> exact ⟨rfl, ⟨l, rfl⟩⟩
  | touch path =>
    show Unaware l (runTouch o p _ path) (runTouch o p w path)
    unfold runTouch
    simp only [h.says, h.fault]
    cases resolve w.fs p.cwd path true with
    | error e => exact .broken
    | ok x =>
      simp only
      cases w.fs x with
      | some n => simp only; cases o.fault p w 0 <;> exact ⟨rfl, ⟨l, rfl⟩⟩
      | none =>
        simp only
        cases o.fault p w 0 with
        | some m => exact .broken
        | none => simp only; cases o.fault p w 1 <;> exact ⟨rfl, ⟨l, rfl⟩⟩
  | touchLink path =>
    show Unaware l (runTouchLink o p _ path) (runTouchLink o p w path)
    unfold runTouchLink
    simp only [h.says, h.fault]
    cases lookup w.fs p.cwd path false with
    | error e => exact .broken
    | ok x => simp only; cases o.fault p w 0 <;> exact ⟨rfl, ⟨l, rfl⟩⟩
  | rm path =>
    show Unaware l (runRm o p _ path) (runRm o p w path)
    unfold runRm
    simp only [h.says]
    cases lookup w.fs p.cwd path false with
    | error e => exact .broken
    | ok x =>
      obtain ⟨x, n⟩ := x
      simp only
      by_cases hk : n.kind = .dir
      · rw [if_pos hk, if_pos hk]; exact .broken
      · rw [if_neg hk, if_neg hk]; exact hu x
  | rmTree path =>
    show Unaware l (runRmTree o p _ path) (runRmTree o p w path)
    unfold runRmTree
    simp only [h.says, h.kept]
    by_cases hl : lastComponent path = p!"." ∨ lastComponent path = p!".."
    · rw [if_pos hl, if_pos hl]; exact .broken
    · rw [if_neg hl, if_neg hl]
      cases lookup w.fs p.cwd path false with
      | error e =>
        simp only
        by_cases he : e = ENOENT ∨ e = ENOTDIR
        · rw [if_pos he, if_pos he]; exact .fine
        · rw [if_neg he, if_neg he]; exact .broken
      | ok x =>
        obtain ⟨x, n⟩ := x
        simp only
        by_cases hx : x = []
        · rw [if_pos hx, if_pos hx]; exact .broken
        · rw [if_neg hx, if_neg hx]
          by_cases hk : n.kind = .dir
          · rw [if_pos hk, if_pos hk]
            cases o.kept p w <;> exact ⟨rfl, ⟨l, rfl⟩⟩
          · rw [if_neg hk, if_neg hk]; exact hu x
  | ln target path =>
    show Unaware l (runLn o p _ target path) (runLn o p w target path)
    unfold runLn
    simp only [h.says, h.fault]
    rw [show linkPlace { w with started := l } p target path = linkPlace w p target path from rfl]
    cases linkPlace w p target path with
    | error e => exact .broken
    | ok x =>
      simp only
      by_cases ht : target = []
      · rw [if_pos ht, if_pos ht]; exact .broken
      · rw [if_neg ht, if_neg ht]
        cases w.fs x with
        | none => simp only; cases o.fault p w 0 <;> exact ⟨rfl, ⟨l, rfl⟩⟩
        | some n =>
          simp only
          by_cases hk : n.kind = .dir
          · rw [if_pos hk, if_pos hk]; exact .broken
          · rw [if_neg hk, if_neg hk]
            cases o.fault p w 0 with
            | some m => exact .broken
            | none => simp only; cases o.fault p w 1 <;> exact ⟨rfl, ⟨l, rfl⟩⟩
  | readlink path =>
    show Unaware l (runReadlink o p _ path) (runReadlink o p w path)
    unfold runReadlink
    simp only [h.fault]
    cases lookup w.fs p.cwd path false with
    | error e => exact .broken
    | ok x =>
      obtain ⟨x, n⟩ := x
      simp only
      cases n.kind with
      | link t => simp only; cases o.fault p w 0 <;> exact ⟨rfl, ⟨l, rfl⟩⟩
      | _ => exact .broken
  | cp src dst =>
    show Unaware l (runCp o p _ src dst) (runCp o p w src dst)
    unfold runCp
    simp only [h.says, h.fault, h.copied]
    cases lookup w.fs p.cwd src false with
    | error e => exact .broken
    | ok x =>
      obtain ⟨x, n⟩ := x
      simp only
      cases n.kind with
      | file c =>
        simp only
        rw [show copyPlace { w with started := l } p src dst = copyPlace w p src dst from rfl]
        cases copyPlace w p src dst with
        | error e => exact .broken
        | ok y =>
          simp only
          by_cases hy : y = x
          · rw [if_pos hy, if_pos hy]; exact .broken
          · rw [if_neg hy, if_neg hy]
            cases w.fs y with
            | some old =>
              simp only
              cases old.kind with
              | file _ =>
                simp only
                cases o.fault p w 0 with
                | some m => exact .broken
                | none => simp only; cases o.fault p w 1 <;> exact ⟨rfl, ⟨l, rfl⟩⟩
              | dir => exact .broken
              | _ => exact ho
            | none =>
              simp only
              cases o.fault p w 0 with
              | some m => exact .broken
              | none => simp only; cases o.fault p w 1 <;> exact ⟨rfl, ⟨l, rfl⟩⟩
      | _ => exact ho

/-- A host with the standard tools. -/
theorem noHistory_core {o : Tools} (h : ToolsForget o) (hx : sys.exec = core o) (hf : ∀ w call started, sys.fault { w with started } call = sys.fault w call)
    (hw : ∀ w path started, sys.written { w with started } path = sys.written w path) : NoHistory sys := by
  refine ⟨hf, hw, fun p w l => ?_⟩
  rw [hx]
  unfold core
  rw [h.missing]
  cases o.missing p w with
  | some e => exact ⟨rfl, ⟨l, rfl⟩⟩
  | none =>
    simp only
    cases parseTool p.argv with
    | none => exact h.other p w l
    | some t => exact tool_history h p w l t

/-- One request on hosts that differ in the history of processes. -/
theorem flaky_same (hn : NoHistory sys) {lost : Nat → Option Bool} {p : Packet} {w w' : World} {k : Nat} (h : SameHost w w') :
    (flaky sys lost p (w', k)).1 = (flaky sys lost p (w, k)).1 ∧ SameHost (flaky sys lost p (w, k)).2.1 (flaky sys lost p (w', k)).2.1 := by
  obtain ⟨l, rfl⟩ := h
  obtain ⟨h1, h2⟩ := direct_history hn p w l
  unfold flaky
  dsimp only
  cases lost k with
  | none => exact ⟨h1, h2⟩
  | some b => cases b <;> first | exact ⟨rfl, ⟨l, rfl⟩⟩ | exact ⟨rfl, h2⟩

theorem flaky_count {lost : Nat → Option Bool} {p : Packet} {s : World × Nat} : (flaky sys lost p s).2.2 = s.2 + 1 := by
  unfold flaky
  cases lost s.2 with
  | none => rfl
  | some b => cases b <;> rfl

/-- What a run does does not depend on the history of processes. -/
theorem run_history (hn : NoHistory sys) {lost : Nat → Option Bool} : ∀ (m : Prog α) {w w' : World} {k : Nat}, SameHost w w' →
    (m.run (flaky sys lost) (w', k)).1 = (m.run (flaky sys lost) (w, k)).1
    ∧ SameHost (m.run (flaky sys lost) (w, k)).2.1 (m.run (flaky sys lost) (w', k)).2.1
  | .ret _, _, _, _, h => ⟨rfl, h⟩
  | .req p c, w, w', k, h => by
    obtain ⟨h1, h2⟩ := flaky_same hn (lost := lost) (p := p) (k := k) h
    have := run_history hn (lost := lost) (c (flaky sys lost p (w, k)).1) (k := k + 1) h2
    simp only [Prog.run]
    rw [h1]
    rw [show (flaky sys lost p (w', k)).2 = ((flaky sys lost p (w', k)).2.1, k + 1) from Prod.ext rfl flaky_count,
      show (flaky sys lost p (w, k)).2 = ((flaky sys lost p (w, k)).2.1, k + 1) from Prod.ext rfl flaky_count]
    exact this

/-- The rest of a run, alone. -/
def Process.run (sys : Sys) (p : Process α) (w : World) : α × World :=
  ((p.todo.run (flaky sys p.lost) (w, p.made)).1, (p.todo.run (flaky sys p.lost) (w, p.made)).2.1)

theorem Process.run_start {m : Op α} {env : Env} {st : St} {lost : Nat → Option Bool} {w : World} :
    (Process.start m env st lost).run sys w = ((exec (flaky sys lost) m env st (w, 0)).1, (exec (flaky sys lost) m env st (w, 0)).2.1) := rfl

/-- Making one request and then the rest. -/
theorem Process.run_step (p : Process α) (w : World) : (p.step sys w).1.run sys (p.step sys w).2 = p.run sys w := by
  obtain ⟨todo, lost, made⟩ := p
  cases todo with
  | ret a => rfl
  | req q c =>
    simp only [Process.step, Process.run, Prog.run]
    rw [show (flaky sys lost q (w, made)).2 = ((flaky sys lost q (w, made)).2.1, made + 1) from Prod.ext rfl flaky_count]

theorem Process.run_same (hn : NoHistory sys) (p : Process α) {w w' : World} (h : SameHost w w') :
    (p.run sys w').1 = (p.run sys w).1 ∧ SameHost (p.run sys w).2 (p.run sys w').2 := run_history hn p.todo h

/-- All requests that are left are as described, whichever possible answers there are. -/
def Process.Asks (sys : Sys) (I : World → Prop) (A : Packet → Prop) (p : Process α) : Prop :=
  ∀ t r, Prog.Runs p.todo t r → (∀ request answer, (request, answer) ∈ t → Possible sys I request answer) → ∀ request answer, (request, answer) ∈ t → A request

theorem runs_lost (I : World → Prop) (q : Prog α) : ∃ t r, Prog.Runs q t r ∧ ∀ request answer, (request, answer) ∈ t → Possible sys I request answer := by
  induction q with
  | ret a => exact ⟨[], a, .ret a, fun _ _ h => absurd h List.not_mem_nil⟩
  | req p k ih =>
    obtain ⟨t, r, h, hp⟩ := ih (.error Client.lostConnection)
    refine ⟨_, _, .req p k _ t r h, fun x y hm => ?_⟩
    rcases List.mem_cons.mp hm with h | h
    · cases h; exact .inl rfl
    · exact hp x y h

variable {I : World → Prop} {A B : Packet → Prop}

theorem Process.Asks.head {q : Packet} {c : Except Exn Packet → Prog α} {lost : Nat → Option Bool} {made : Nat}
    (h : Process.Asks sys I A { todo := .req q c, lost, made }) : A q := by
  obtain ⟨t, r, hr, hp⟩ := runs_lost (sys := sys) I (c (.error Client.lostConnection))
  refine h _ _ (.req q c _ t r hr) (fun x y hm => ?_) q _ List.mem_cons_self
  rcases List.mem_cons.mp hm with h | h
  · cases h; exact .inl rfl
  · exact hp x y h

theorem Process.Asks.step {p : Process α} (h : p.Asks sys I A) {w : World} (hi : I w) : (p.step sys w).1.Asks sys I A := by
  obtain ⟨todo, lost, made⟩ := p
  cases todo with
  | ret a => exact h
  | req q c =>
    intro t r hr hp x y hm
    refine h _ _ (.req q c _ t r hr) (fun x y hm => ?_) x y (List.mem_cons_of_mem _ hm)
    rcases List.mem_cons.mp hm with h | h
    · cases h
      unfold flaky
      dsimp only
      cases lost made with
      | none => exact .inr ⟨w, hi, rfl⟩
      | some b => cases b <;> exact .inl rfl
    · exact hp x y h

theorem asks_start {m : Op α} {env : Env} {st : St} {lost : Nat → Option Bool} (h : AsksOnly sys I A m env st) :
    (Process.start m env st lost).Asks sys I A := fun t r hr hp => h t r.1 r.2 hr hp

/-- A request that only looks leaves the host alone. -/
theorem step_looks (hl : Looking sys) {p : Process α} (h : p.Asks sys I ReadOnly) (w : World) : SameHost w (p.step sys w).2 := by
  obtain ⟨todo, lost, made⟩ := p
  cases todo with
  | ret a => exact .refl w
  | req q c =>
    have hr : SameHost w (direct sys q w).2 := ⟨_, readOnly_same hl q w h.head⟩
    unfold Process.step flaky
    dsimp only
    cases lost made with
    | none => exact hr
    | some b => cases b <;> first | exact .refl w | exact hr

/-- Runs that only look are not noticed. -/
theorem amid_looking (hl : Looking sys) (hn : NoHistory sys) : ∀ (s : List (Option Nat)) (p : Process α) (qs : Nat → Process β) (w : World),
    (∀ i, (qs i).Asks sys (fun _ => True) ReadOnly) → ((amid sys s p qs w).1.run sys (amid sys s p qs w).2.2).1 = (p.run sys w).1
      ∧ SameHost (p.run sys w).2 ((amid sys s p qs w).1.run sys (amid sys s p qs w).2.2).2
  | [], p, qs, w, _ => ⟨rfl, .refl _⟩
  | none :: s, p, qs, w, h => by
    have := amid_looking hl hn s (p.step sys w).1 qs (p.step sys w).2 h
    rw [Process.run_step] at this
    exact this
  | some i :: s, p, qs, w, h => by
    have h1 := amid_looking hl hn s p (fun j => if j = i then ((qs i).step sys w).1 else qs j) ((qs i).step sys w).2 (by
      intro j
      by_cases hj : j = i
      · simp only [if_pos hj]; exact (h i).step trivial
      · simp only [if_neg hj]; exact h j)
    have h2 := p.run_same hn (step_looks hl (h i) w)
    exact ⟨h1.1.trans h2.1, h2.2.trans h1.2⟩

theorem step_same (hn : NoHistory sys) (p : Process α) {w w' : World} (h : SameHost w w') :
    (p.step sys w').1 = (p.step sys w).1 ∧ SameHost (p.step sys w).2 (p.step sys w').2 := by
  obtain ⟨todo, lost, made⟩ := p
  cases todo with
  | ret a => exact ⟨rfl, h⟩
  | req q c =>
    obtain ⟨h1, h2⟩ := flaky_same hn (lost := lost) (p := q) (k := made) h
    exact ⟨by simp only [Process.step]; rw [h1], h2⟩

/-- At every moment, runs that only look have not been noticed. -/
theorem amid_alone (hl : Looking sys) (hn : NoHistory sys) : ∀ (s : List (Option Nat)) (p : Process α) (qs qs' : Nat → Process β) (w w' : World),
    (∀ i, (qs i).Asks sys (fun _ => True) ReadOnly) → SameHost w' w → (amid sys s p qs w).1 = (amid sys (s.filter Option.isNone) p qs' w').1
      ∧ SameHost (amid sys (s.filter Option.isNone) p qs' w').2.2 (amid sys s p qs w).2.2
  | [], p, qs, qs', w, w', _, h => ⟨rfl, h⟩
  | none :: s, p, qs, qs', w, w', ha, h => by
    obtain ⟨h1, h2⟩ := step_same hn p h
    simp only [amid, List.filter_cons_of_pos (show Option.isNone (none : Option Nat) = true from rfl)]
    rw [h1]
    exact amid_alone hl hn s _ _ _ _ _ ha h2
  | some i :: s, p, qs, qs', w, w', ha, h => by
    simp only [amid]
    rw [List.filter_cons_of_neg (by simp)]
    refine amid_alone hl hn s p _ qs' _ _ (fun j => ?_) (h.trans (step_looks hl (ha i) w))
    by_cases hj : j = i
    · simp only [if_pos hj]; exact (ha i).step trivial
    · simp only [if_neg hj]; exact ha j

/-! ### Exchanging requests -/

/-- What a request over a connection that may break does. -/
theorem step_cases {q : Packet} {c : Except Exn Packet → Prog α} {lost : Nat → Option Bool} {made : Nat} :
    (∃ g : Except Exn Packet → Except Exn Packet, ∀ w, (Process.step sys { todo := .req q c, lost, made } w)
        = ({ todo := c (g (direct sys q w).1), lost, made := made + 1 }, (direct sys q w).2))
    ∨ ∃ e, ∀ w, (Process.step sys { todo := .req q c, lost, made } w) = ({ todo := c e, lost, made := made + 1 }, w) := by
  cases hl : lost made with
  | none => exact .inl ⟨id, fun w => by simp [Process.step, flaky, hl]⟩
  | some b =>
    cases b with
    | false => exact .inr ⟨_, fun w => by simp only [Process.step, flaky, hl]; rfl⟩
    | true => exact .inl ⟨fun _ => .error Client.lostConnection, fun w => by simp [Process.step, flaky, hl]⟩

theorem Exchangeable.swap (h : Exchangeable sys I A B) : Exchangeable sys I B A :=
  ⟨h.right, h.left, h.history, fun a b w ha hb hi => ⟨(h.answers b a w hb ha hi).2, (h.answers b a w hb ha hi).1⟩,
    fun a b w ha hb hi => (h.effects b a w hb ha hi).symm⟩

theorem step_keeps (hx : Exchangeable sys I A B) {p : Process α} (hp : p.Asks sys I A) {w : World} (hi : I w) : I (p.step sys w).2 := by
  obtain ⟨todo, lost, made⟩ := p
  cases todo with
  | ret a => exact hi
  | req q c =>
    rcases step_cases (sys := sys) (q := q) (c := c) (lost := lost) (made := made) with ⟨g, h⟩ | ⟨e, h⟩
    · rw [h]; exact hx.left q w hp.head hi
    · rw [h]; exact hi

/-- A request of the second run can be made after the whole of the first run. -/
theorem run_after (hn : NoHistory sys) (hx : Exchangeable sys I A B) : ∀ (todo : Prog α) (lost : Nat → Option Bool) (made : Nat) (b : Packet) (w : World),
    Process.Asks sys I A { todo, lost, made } → B b → I w →
    (Process.run sys { todo, lost, made } (direct sys b w).2).1 = (Process.run sys { todo, lost, made } w).1
    ∧ (direct sys b (Process.run sys { todo, lost, made } w).2).1 = (direct sys b w).1
    ∧ SameHost (direct sys b (Process.run sys { todo, lost, made } w).2).2 (Process.run sys { todo, lost, made } (direct sys b w).2).2
  | .ret a, _, _, b, w, _, _, _ => ⟨rfl, rfl, .refl _⟩
  | .req q c, lost, made, b, w, hp, hb, hi => by
    have hs := hp.step hi
    rw [← Process.run_step (sys := sys) (p := { todo := .req q c, lost, made }) (w := w),
      ← Process.run_step (sys := sys) (p := { todo := .req q c, lost, made }) (w := (direct sys b w).2)]
    rcases step_cases (sys := sys) (q := q) (c := c) (lost := lost) (made := made) with ⟨g, h⟩ | ⟨e, h⟩
    · rw [h] at hs
      rw [h, h]
      dsimp only at hs ⊢
      obtain ⟨ha1, ha2⟩ := hx.answers q b w hp.head hb hi
      have he := hx.effects q b w hp.head hb hi
      obtain ⟨i1, i2, i3⟩ := run_after hn hx (c (g (direct sys q w).1)) lost (made + 1) b (direct sys q w).2 hs hb (hx.left q w hp.head hi)
      obtain ⟨r1, r2⟩ := Process.run_same hn { todo := c (g (direct sys q w).1), lost, made := made + 1 } he
      rw [ha1]
      exact ⟨r1.symm.trans i1, i2.trans ha2, i3.trans r2.symm⟩
    · rw [h] at hs
      rw [h, h]
      dsimp only at hs ⊢
      exact run_after hn hx (c e) lost (made + 1) b w hs hb hi

/-- The same for a request over a connection that may break. -/
theorem step_after (hn : NoHistory sys) (hx : Exchangeable sys I A B) {p : Process α} {q : Process β} {w : World} (hp : p.Asks sys I A) (hq : q.Asks sys I B) (hi : I w) :
    (p.run sys (q.step sys w).2).1 = (p.run sys w).1
    ∧ (q.step sys (p.run sys w).2).1 = (q.step sys w).1
    ∧ SameHost (q.step sys (p.run sys w).2).2 (p.run sys (q.step sys w).2).2 := by
  obtain ⟨todo, lost, made⟩ := q
  cases todo with
  | ret a => exact ⟨rfl, rfl, .refl _⟩
  | req b c =>
    rcases step_cases (sys := sys) (q := b) (c := c) (lost := lost) (made := made) with ⟨g, h⟩ | ⟨e, h⟩
    · rw [h, h]
      dsimp only
      obtain ⟨i1, i2, i3⟩ := run_after hn hx p.todo p.lost p.made b w hp hq.head hi
      exact ⟨i1, by rw [i2], i3⟩
    · rw [h, h]
      exact ⟨rfl, rfl, .refl _⟩

/-- Whatever the schedule, what comes out is what comes out if the rest of the second run follows the rest of the first run. -/
theorem together_serial (hn : NoHistory sys) (hx : Exchangeable sys I A B) : ∀ (s : List Bool) (p : Process α) (q : Process β) (w : World),
    p.Asks sys I A → q.Asks sys I B → I w →
    let e := together sys s p q w
    (e.1.run sys e.2.2).1 = (p.run sys w).1
    ∧ (e.2.1.run sys (e.1.run sys e.2.2).2).1 = (q.run sys (p.run sys w).2).1
    ∧ SameHost (q.run sys (p.run sys w).2).2 (e.2.1.run sys (e.1.run sys e.2.2).2).2
  | [], p, q, w, _, _, _ => ⟨rfl, rfl, .refl _⟩
  | true :: s, p, q, w, hp, hq, hi => by
    have := together_serial hn hx s (p.step sys w).1 q (p.step sys w).2 (hp.step hi) hq (step_keeps hx hp hi)
    rw [Process.run_step] at this
    exact this
  | false :: s, p, q, w, hp, hq, hi => by
    obtain ⟨h1, h2, h3⟩ := together_serial hn hx s p (q.step sys w).1 (q.step sys w).2 hp (hq.step hi) (step_keeps hx.swap hq hi)
    obtain ⟨i1, i2, i3⟩ := step_after hn hx hp hq hi
    obtain ⟨j1, j2⟩ := Process.run_same hn (q.step sys w).1 i3
    have hk := Process.run_step (sys := sys) q (p.run sys w).2
    rw [i2] at hk
    rw [← hk]
    exact ⟨h1.trans i1, h2.trans j1, j2.trans h3⟩

/-- It does not matter which of the two runs is called the first. -/
theorem together_swap : ∀ (s : List Bool) (p : Process α) (q : Process β) (w : World), together sys s p q w
    = ((together sys (s.map (!·)) q p w).2.1, (together sys (s.map (!·)) q p w).1, (together sys (s.map (!·)) q p w).2.2)
  | [], _, _, _ => rfl
  | true :: s, p, q, w => by simp only [together, List.map_cons, Bool.not_true]; exact together_swap s _ _ _
  | false :: s, p, q, w => by simp only [together, List.map_cons, Bool.not_false]; exact together_swap s _ _ _

end Verif.Ops
