/-
Options for what is displayed do not change what is done (C84).
-/
import Verif.Ops.DisplayLemmas
import Verif.Ops.Example
import Verif.Ops.Record

namespace Verif.Ops

open Script Remote
open Wire (Packet)

/-- C84, whatever the remote answers. With --diff or without, with --no-changes or without, an operation sends the same requests,
apart from downloads that --diff makes, ends with the same result, and prints the same summaries apart from the diffs. Only if such
a download fails (other than by finding that there is no such file), the run ends there with an error, and up to there it has
sent the same requests. -/
theorem C84_diff_only_looks (opts : List Str) (op : Op OpResult) (hop : Operation opts op) (env : Env) (diff changes changes' : Bool) (st st' : St) (t : Trace)
    (r : Except Exn OpResult) (h : Execution op { env with diff := diff, changes := changes } st t r st') :
    (∃ t' st'', WithoutDownloads t t' ∧ Execution op { env with diff := false, changes := changes' } st t' r st'' ∧ SameButDiffs st' st'')
    ∨ ∃ t1 path answer e, t = t1 ++ [(.download path, answer)] ∧ ¬ Obtained answer ∧ r = .error e
      ∧ ∃ t1' t2 r' st'', WithoutDownloads t1 t1' ∧ Execution op { env with diff := false, changes := changes' } st (t1' ++ t2) r' st'' := by
  have hrel := blind_operation (fun _ => True) hop { env with diff := diff, changes := changes } { env with diff := false, changes := changes' }
    ⟨rfl, rfl, rfl⟩ st st ⟨rfl, rfl, rfl, rfl, rfl⟩ [] trivial
  rcases rel_runs hrel h with ⟨t', ⟨r', s'⟩, h1, h2, h3, h4⟩ | ⟨t1, t1', t2, b, path, x, e, h1, h2, h3, h4, h5⟩
  · cases (show r = r' from h3)
    exact .inl ⟨t', s', h1, h2, h4⟩
  · exact .inr ⟨t1, path, x, e, h1, h2, h3, t1', t2, b.1, b.2, h4, h5⟩

/-- C84, on a host. Whatever is to be displayed, a script does the same to the host, gives the same results and prints the same
summaries apart from the diffs, in dry runs as in real ones. -/
theorem C84_display_host (sys : Sys) (hm : MissingIsMissing sys) (ops : List (Op OpResult)) (hops : ∀ op ∈ ops, ∃ opts, Operation opts op)
    (env : Env) (diff diff' changes changes' : Bool) (st : St) (w : World) :
    let with1 := exec (Client.direct sys) (deploy ops) { env with diff := diff, changes := changes } st w
    let with2 := exec (Client.direct sys) (deploy ops) { env with diff := diff', changes := changes' } st w
    with1.1.1 = with2.1.1 ∧ SameButDiffs with1.1.2 with2.1.2 ∧ with1.2 = with2.2 := by
  have key : ∀ d c, _ := fun d c => rel_host (sys := sys) (w := w) hm (blind_deploy (fun _ => True) ops hops { env with diff := d, changes := c } { env with diff := false, changes := true }
    ⟨rfl, rfl, rfl⟩ st st ⟨rfl, rfl, rfl, rfl, rfl⟩ [] trivial) fun t0 p a ht => by simp at ht
  obtain ⟨h1, h2, h3⟩ := key diff changes
  obtain ⟨g1, g2, g3⟩ := key diff' changes'
  exact ⟨h1.trans g1.symm, ⟨h2.stack.trans g2.stack.symm, h2.nested.trans g2.nested.symm, h2.initial.trans g2.initial.symm,
    h2.final.trans g2.final.symm, h2.shown.trans g2.shown.symm⟩, h3.trans g3.symm⟩

namespace Example

/-- A host on which calls do not fail for reasons of their own. -/
theorem missing {s : Sys} (h : ∀ w c, s.fault w c = none) : MissingIsMissing s := by
  intro w path e e' h1 h2 h3
  unfold osStat guardCall at h1
  unfold osRead guardCall at h3
  by_cases hn : hasNul path = true
  · simp only [hn, if_true, Except.error.injEq] at h1
    subst h1
    cases h2
  · simp only [hn, h, if_false, Bool.false_eq_true] at h1 h3
    cases hl : lookup w.fs w.cwd path false with
    | ok x => rw [hl] at h1; cases h1
    | error n =>
      rw [hl] at h1
      cases h1
      have hn : n = ENOENT := by simpa [osErr, OSErr.exn, isENOENT] using h2
      subst hn
      have hl' : lookup w.fs w.cwd path true = .error ENOENT := by
        rcases stat_none_cases hl with ⟨e, hr⟩ | ⟨l, hr, hn⟩
        · have := resolve_error_follow hr
          unfold lookup at hl ⊢
          rw [hr] at hl
          rw [this]
          exact hl
        · have := resolve_follow (fun t ht => by rw [hn] at ht; cases ht) hr
          unfold lookup
          rw [this]
          simp only [hn]
      rw [hl'] at h3
      cases h3
      rfl

theorem missing_sys : MissingIsMissing sys := missing fun _ _ => rfl

/-- A file is replaced and a directory is made. -/
def pair : List (Op OpResult) :=
  [uploadContent sys.sha512 (.str p!"new") p!"/etc/motd" none none none true, directory p!"/tmp/www" true false none none none true]

example : ∀ op ∈ pair, ∃ opts, Operation opts op := by
  intro op h
  simp only [pair, List.mem_cons, List.not_mem_nil, or_false] at h
  rcases h with rfl | rfl
  · exact ⟨_, .uploadContent _ _ _ _ _ _ _⟩
  · exact ⟨_, .directory _ _ _ _ _ _ _⟩

/-- The number of diffs in each summary. -/
def diffCounts (x : (Except Exn (List OpResult) × St) × World) : List Nat := x.1.2.shown.map (·.diffs.length)

/-- With --diff there is a diff, without there is none; the results are the same. -/
example : diffCounts (exec (Client.direct sys) (deploy pair) { env with diff := true } st host) = [1, 0]
    ∧ diffCounts (exec (Client.direct sys) (deploy pair) { env with changes := false } st host) = [0, 0]
    ∧ ((exec (Client.direct sys) (deploy pair) { env with diff := true } st host).1.1.toOption.map (·.map (·.changed))) = some [true, true] :=
  ⟨by decide +kernel, by decide +kernel, by decide +kernel⟩

/-- What is downloaded in a conversation. -/
def downloads (t : Trace) : List Str := t.filterMap fun x => match x.1 with
  | .download path => some path
  | _ => none

/-- The operation that replaces the file. -/
def replace : Op OpResult := uploadContent sys.sha512 (.str p!"new") p!"/etc/motd" none none none true

/-- The execution with --diff has one more request, a download of the old content. -/
example : downloads (conversation sys always replace { env with diff := true } st host) = [p!"/etc/motd"]
    ∧ downloads (conversation sys always replace env st host) = []
    ∧ (conversation sys always replace { env with diff := true } st host).length = (conversation sys always replace env st host).length + 1
    ∧ (perform sys always replace { env with diff := true } st host).1.toOption.map (·.changed) = some true :=
  ⟨by decide +kernel, by decide +kernel, by decide +kernel, by decide +kernel⟩

/-- The other case: the connection breaks during the download. -/
def breaksAt (n : Nat) : Nat → Option Bool := fun k => if k = n then some false else none

example : downloads (conversation sys (breaksAt ((conversation sys always replace env st host).length - 1)) replace { env with diff := true } st host) = [p!"/etc/motd"]
    ∧ (perform sys (breaksAt ((conversation sys always replace env st host).length - 1)) replace { env with diff := true } st host).1.toOption.map (·.changed) = none :=
  ⟨by decide +kernel, by decide +kernel⟩

end Example

end Verif.Ops
