/-
C39, C40: repeating file operations.
-/
import Verif.Ops.RepeatLemmas
import Verif.Ops.ConvergeProps

namespace Verif.Ops

open Script Remote

/-- Performing the operation has no effect on the host, even if the connection breaks, and if it ends, it reports success and
that nothing was changed. -/
def NothingToDo (sys : Sys) (op : Op OpResult) (env : Env) (st : St) (w : World) : Prop :=
  ∀ lost, Untouched (fun _ => False) w (perform sys lost op env st w).2
    ∧ ∀ r, (perform sys lost op env st w).1 = .ok r → r.success = true ∧ r.changed = false

/-- The mode is below 10000 and requests neither setuid nor setgid. -/
def NoSetIds (mode : Option Str) : Prop :=
  ∀ m (i : Nat), mode = some m → Py.parseInt 8 m = some (i : Int) → i < 0o10000 ∧ i &&& 0o6000 = 0

section
variable {sys : Sys} {tools : Tools} {env : Env} {st : St} {w : World} {op : Op OpResult} {check : Bool}

theorem nothing_of_calm (h : ∀ lost, Post sys lost op env st w (fun r _ w' => (Settled w r w' ∧ Same w w') ∧ (check = true → r.success = true)) (Same w)) :
    NothingToDo sys op env st w := by
  intro lost
  refine ⟨?_, fun r hr => (post_ok (h lost) hr).1.1.1.1⟩
  have hs : Same w (perform sys lost op env st w).2 := post_world (h lost) (fun _ _ _ h => h.1.2)
  refine ⟨fun q _ => ?_, ?_⟩
  · rw [hs]
  · rw [hs]

/-! ### C39 -/

end

/-- C39 for `directory`. After it has succeeded, doing it again has no effect and reports no change. Assumed: the default modes
have no leading zeros, no uid or gid belongs to two accounts, the modification time is not to be set, and no setuid or setgid
bits are inherited. -/
theorem C39_directory_idempotent_partial (sys : Sys) (tools : Tools) (lost : Nat → Option Bool) (env : Env) (st : St) (w : World)
    (hord : Ordinary sys tools w) (hm : PlainModes env st) (hcm : CanonicalModes env st) (hna : NoAliases w) (hdry : env.dry = false)
    (path : Str) (mode owner group : Option Str) (check : Bool) (hown : OwnersSet (inForce env st { dirMode := mode, owner, group }))
    (hbits : NoSpecialBits w path) (r : OpResult)
    (hr : (perform sys lost (directory path true false mode owner group check) env st w).1 = .ok r) (hs : r.success = true) :
    NothingToDo sys (directory path true false mode owner group check) env st
      (perform sys lost (directory path true false mode owner group check) env st w).2 := by
  have h := (post_ok (directory_post hord hm) hr).1.1 hs hdry
  obtain ⟨attr, t, l, he, _, _, _, _, hres, ⟨n, hn, hdn, hp, how⟩, m, hmm, hi⟩ := h.1 rfl
  refine nothing_of_calm (fun lost => directory_calm (hord.now hn (fun _ h => (by cases h; exact hdn.sane))) hm hcm (hna.now hn) hown.1 hown.2 (now_lookup hn) hdn.kind
    ((he.owned how).now hn) hmm ?_)
  rw [hp, dirPerm_exact hres hbits]
  exact hi

/-- C39 for `directory`, `present=False`. -/
theorem C39_directory_removed_idempotent (sys : Sys) (tools : Tools) (lost : Nat → Option Bool) (env : Env) (st : St) (w : World)
    (hord : Ordinary sys tools w) (hm : PlainModes env st) (hdry : env.dry = false)
    (path : Str) (touch : Bool) (mode owner group : Option Str) (check : Bool) (r : OpResult)
    (hr : (perform sys lost (directory path false touch mode owner group check) env st w).1 = .ok r) (hs : r.success = true) :
    NothingToDo sys (directory path false touch mode owner group check) env st
      (perform sys lost (directory path false touch mode owner group check) env st w).2 := by
  have h := ((post_ok (directory_post hord hm) hr).1.1 hs hdry).2 rfl
  exact nothing_of_calm (fun lost => directory_calm_absent (hord.treeGone h) hm h.lookup)

/-- C39 for `file`. Assumed as above, and that the mode requests neither setuid nor setgid. -/
theorem C39_file_idempotent_partial (sys : Sys) (tools : Tools) (lost : Nat → Option Bool) (env : Env) (st : St) (w : World)
    (hord : Ordinary sys tools w) (hm : PlainModes env st) (hcm : CanonicalModes env st) (hna : NoAliases w) (hdry : env.dry = false)
    (path : Str) (mode owner group : Option Str) (check : Bool) (hown : OwnersSet (inForce env st { fileMode := mode, owner, group }))
    (hbits : NoSetIds (inForce env st { fileMode := mode, owner, group }).fileMode) (r : OpResult)
    (hr : (perform sys lost (file path true false mode owner group check) env st w).1 = .ok r) (hs : r.success = true) :
    NothingToDo sys (file path true false mode owner group check) env st
      (perform sys lost (file path true false mode owner group check) env st w).2 := by
  have h := (post_ok (file_post hord hm) hr).1.1 hs hdry
  obtain ⟨attr, t, l, he, _, _, _, hlt, hres, ⟨n, hn, hdn, hp, how⟩, m, hmm, hi⟩ := h.1 rfl
  refine nothing_of_calm (fun lost => file_calm (hord.now hn (fun _ h => (by cases h; exact hdn.sane))) hm hcm (hna.now hn) hown.1 hown.2 (now_lookup hn) hdn.kind
    ((he.owned how).now hn) hmm ?_)
  rw [hp.exact hlt (hbits m _ hmm hi).2]
  exact hi

/-- C39 for `file`, `present=False`. -/
theorem C39_file_removed_idempotent (sys : Sys) (tools : Tools) (lost : Nat → Option Bool) (env : Env) (st : St) (w : World)
    (hord : Ordinary sys tools w) (hm : PlainModes env st) (hdry : env.dry = false)
    (path : Str) (touch : Bool) (mode owner group : Option Str) (check : Bool) (r : OpResult)
    (hr : (perform sys lost (file path false touch mode owner group check) env st w).1 = .ok r) (hs : r.success = true) :
    NothingToDo sys (file path false touch mode owner group check) env st
      (perform sys lost (file path false touch mode owner group check) env st w).2 := by
  have h := ((post_ok (file_post hord hm) hr).1.1 hs hdry).2 rfl
  exact nothing_of_calm (fun lost => file_calm_absent (hord.gone h) hm h.lookup)

/-- C39 for `link`. Assumed as for `directory`, that the path does not lead to a directory, and that the target was not the only
thing to be changed. -/
theorem C39_link_idempotent_partial (sys : Sys) (tools : Tools) (lost : Nat → Option Bool) (env : Env) (st : St) (w : World)
    (hord : Ordinary sys tools w) (hm : PlainModes env st) (hna : NoAliases w) (hdry : env.dry = false)
    (path target : Str) (owner group : Option Str) (check : Bool) (hown : OwnersSet (inForce env st { owner, group }))
    (hpl : Plain target) (hdir : Direct w path) (hnd : HasTarget w path target ∨ NotToDirectory w path)
    (honly : ¬ OnlyTargetDiffers w path target (inForce env st { owner, group })) (r : OpResult)
    (hr : (perform sys lost (link path target true false owner group check) env st w).1 = .ok r) (hs : r.success = true) :
    NothingToDo sys (link path target true false owner group check) env st
      (perform sys lost (link path target true false owner group check) env st w).2 := by
  have h := (post_ok (link_post hord hm hpl hdir (fun _ => hnd)) hr).1.1 hs hdry
  obtain ⟨attr, l, he, hres, n, t, hn, hln, hk, ht, how⟩ := h.1 rfl
  have how := he.owned (how (by
    rintro ⟨m, t', h0, h1, h2, h3⟩
    exact honly ⟨l, m, t', lookup_of hres h0, h2, h3, he.owned h1⟩))
  exact nothing_of_calm (fun lost => link_calm (hord.now hn (fun _ h => (by cases h; exact hln.sane hpl.2))) hm (hna.now hn) hown.1 hown.2 (now_lookup hn) hk hpl.1 ht (how.now hn))

/-- C39 for `link`, `present=False`. -/
theorem C39_link_removed_idempotent (sys : Sys) (tools : Tools) (lost : Nat → Option Bool) (env : Env) (st : St) (w : World)
    (hord : Ordinary sys tools w) (hm : PlainModes env st) (hdry : env.dry = false)
    (path target : Str) (touch : Bool) (owner group : Option Str) (check : Bool) (hpl : Plain target) (hdir : Direct w path) (r : OpResult)
    (hr : (perform sys lost (link path target false touch owner group check) env st w).1 = .ok r) (hs : r.success = true) :
    NothingToDo sys (link path target false touch owner group check) env st
      (perform sys lost (link path target false touch owner group check) env st w).2 := by
  have h := ((post_ok (link_post hord hm hpl hdir (fun h => by cases h)) hr).1.1 hs hdry).2 rfl
  exact nothing_of_calm (fun lost => link_calm_absent (hord.gone h) hm h.lookup)

/-- C39 for `upload_content`, `upload`, `template_content` and `template`. Assumed as for `file`, and that the mode is below 10000. -/
theorem C39_store_idempotent_partial (sys : Sys) (tools : Tools) (lost : Nat → Option Bool) (env : Env) (st : St) (w : World)
    (hord : Ordinary sys tools w) (hm : PlainModes env st) (hcm : CanonicalModes env st) (hna : NoAliases w) (hdry : env.dry = false)
    (op : Op OpResult) (path : Str) (source : Except Exn Bytes) (mode owner group : Option Str) (check : Bool)
    (hop : Stores sys.sha512 mode owner group check op path source) (hsize : ∀ c, source = .ok c → Modest c.length)
    (hown : OwnersSet (inForce env st { fileMode := mode, owner, group }))
    (hbits : NoSetIds (inForce env st { fileMode := mode, owner, group }).fileMode) (r : OpResult)
    (hr : (perform sys lost op env st w).1 = .ok r) (hs : r.success = true) :
    NothingToDo sys op env st (perform sys lost op env st w).2 := by
  have h := (post_ok (store_post hop hord hm) hr).1.1 hs hdry
  obtain ⟨content, hsrc, attr, l, i, m, he, _, hmm, hi, hi0, hres, n, c, hn, hsn, hk, hc, hp, how⟩ := h
  obtain ⟨i, rfl⟩ : ∃ k : Nat, i = (k : Int) := ⟨i.toNat, (Int.toNat_of_nonneg hi0).symm⟩
  obtain ⟨h1, h2⟩ := hbits m i hmm hi
  have hmod : ((i : Int) % 4096).toNat = i := by omega
  rw [hmod] at hp
  refine nothing_of_calm (fun lost => store_calm hop (hord.now hn (fun _ h => (by cases h; exact hsn (hsize _ hsrc)))) hm hcm (hna.now hn) hown.1 hown.2 (now_lookup hn) hk ?_
    ((he.owned how).now hn) hmm ?_)
  · intro b hb
    rw [hsrc] at hb; cases hb; exact hc
  · rw [hp.exact h1 h2]; exact hi

/-- The hypotheses are met where a directory, a file and a link are created, and content is uploaded. -/
example : OwnersSet (inForce Example.env Example.st { dirMode := some p!"750", owner := some p!"alice", group := none })
    ∧ CanonicalModes Example.env Example.st ∧ NoAliases Example.host ∧ NoSpecialBits Example.host p!"/etc/x" ∧ NoSetIds (some p!"640") := by
  refine ⟨⟨by decide, by decide⟩, Example.canonicalModes, Example.noAliases, ?_, ?_⟩
  · intro l hl
    have : l = [p!"etc", p!"x"] := by
      have h : resolve Example.host.fs Example.host.cwd p!"/etc/x" false = .ok [p!"etc", p!"x"] := rfl
      rw [h] at hl; cases hl; rfl
    subst this
    refine ⟨fun n hn => (by cases hn), fun _ p hp => ?_⟩
    have : some p = Example.host.fs [p!"etc"] := hp.symm
    have h : (Example.host.fs [p!"etc"]).map (fun p => p.perm &&& 0o2000) = some 0 := by decide +kernel
    rw [← this] at h
    simpa using h
  · intro m i hm hi
    cases hm
    have : i = 0o640 := by
      have h : Py.parseInt 8 p!"640" = some (0o640 : Nat) := by decide +kernel
      have := Option.some.inj (h.symm.trans hi)
      omega
    subst this
    decide

/-- Twice the same operation; what the second run reports. -/
def Example.again (op : Op OpResult) (w : World) : Except Exn OpResult :=
  (perform Example.sys Example.always op Example.env Example.st
    (perform Example.sys Example.always op Example.env Example.st w).2).1

/-- It ended normally, reporting this. -/
def Example.reports (x : Except Exn OpResult) (success changed : Bool) : Bool :=
  match x with
  | .ok r => r.success == success && r.changed == changed
  | .error _ => false

/-- Each of them reports success and a change, and no change when done again. -/
example : ∀ op ∈ [directory p!"/etc/x" true false (some p!"750") (some p!"alice") none true, file p!"/tmp/x" true false (some p!"640") (some p!"alice") none true,
      link p!"/tmp/l" p!"/etc" true false (some p!"alice") none true, uploadContent Example.sys.sha512 (.str p!"hello") p!"/etc/motd" (some p!"644") (some p!"alice") none true,
      directory p!"/home" false false none none none true],
    Example.reports (perform Example.sys Example.always op Example.env Example.st Example.host).1 true true = true
    ∧ Example.reports (Example.again op Example.host) true false = true := by
  intro op h
  simp only [List.mem_cons, List.not_mem_nil, or_false] at h
  rcases h with rfl | rfl | rfl | rfl | rfl <;> exact ⟨by decide +kernel, by decide +kernel⟩

/-- C39 is false in general. Each of these operations succeeds and reports a change, and so does the same operation
afterwards: a directory in which setgid cannot be cleared; a file that is to be setuid and belong to another user; a link of
which only the target had to be changed; and an operation that is to set the modification time. -/
theorem C39_idempotent_refuted :
    Example.reports (Example.again (directory p!"/home" true false (some p!"755") none none true) Example.host) true true = true
    ∧ Example.reports (Example.again (file p!"/tmp/x" true false (some p!"4755") (some p!"alice") none true) Example.host) true true = true
    ∧ Example.reports (Example.again (link p!"/dangling" p!"/x" true false (some p!"alice") none true) Example.host2) true true = true
    ∧ Example.reports (Example.again (file p!"/tmp/x" true true none none none true) Example.host) true true = true :=
  ⟨by decide +kernel, by decide +kernel, by decide +kernel, by decide +kernel⟩

/-! ### C40

Three runs of the same operation: one that succeeds, an attempt on the same host that ends in any way, with the connection
breaking anywhere and tools failing anywhere, and one that succeeds on the host that the attempt has left behind. -/

/-- If `op` succeeds on `w`, then it leads to the same host if it succeeds after another attempt, wherever that was
interrupted. -/
def Repeatable (sys : Sys) (op : Op OpResult) (env : Env) (st : St) (w : World) : Prop :=
  ∀ lost lost1 lost2 r r2, (perform sys lost op env st w).1 = .ok r → r.success = true →
    (perform sys lost2 op env st (perform sys lost1 op env st w).2).1 = .ok r2 → r2.success = true →
    Alike (perform sys lost op env st w).2 (perform sys lost2 op env st (perform sys lost1 op env st w).2).2

/-- C40 for `directory`. -/
theorem C40_directory_repeatable (sys : Sys) (tools : Tools) (env : Env) (st : St) (w : World)
    (hord : Ordinary sys tools w) (hm : PlainModes env st) (hdry : env.dry = false) (path : Str) (touch : Bool)
    (mode owner group : Option Str) (check : Bool) (hown : OwnersSet (inForce env st { dirMode := mode, owner, group })) :
    Repeatable sys (directory path true touch mode owner group check) env st w := by
  intro lost lost1 lost2 r r2 hr hs hr2 hs2
  obtain ⟨attr, t, l, he, hmo, hat, _, _, hres, ⟨n, hn, hdn, hp, how⟩, _⟩ := ((post_ok (directory_post hord hm) hr).1.1 hs hdry).1 rfl
  obtain ⟨hleft, hperm⟩ := directory_left hord hres hmo hat (post_world (lost := lost1) (directory_post (check := check) (touch := touch) hord hm) (fun _ _ _ h => h.1.2))
  obtain ⟨attr2, t2, l2, he2, hmo2, hat2, _, _, hres2, ⟨n2, hn2, hdn2, hp2, how2⟩, _⟩ := ((post_ok (directory_post hleft.ordinary hm) hr2).1.1 hs2 hdry).1 rfl
  obtain rfl := resolved_eq hleft.res hres2
  have : t2 = t := by
    rw [hmo.dir] at hat
    rw [hmo2.dir, hat] at hat2
    cases hat2; rfl
  subst this
  obtain ⟨h1, h2⟩ := owned_same hleft.users hleft.groups hown.1 hown.2 (he.owned how) (he2.owned how2)
  exact alike_of (.of_now hn) hleft.elsewhere (.of_now hn2) hn.at hn2.at ⟨.inl (hdn.kind.trans hdn2.kind.symm), fun _ => by rw [hp, hp2, hperm], h1, h2⟩

/-- C40 for `directory`, `present=False`. -/
theorem C40_directory_removed_repeatable (sys : Sys) (tools : Tools) (env : Env) (st : St) (w : World)
    (hord : Ordinary sys tools w) (hm : PlainModes env st) (hdry : env.dry = false) (path : Str) (touch : Bool)
    (mode owner group : Option Str) (check : Bool) (hdir : Direct w path) :
    Repeatable sys (directory path false touch mode owner group check) env st w := by
  intro lost lost1 lost2 r r2 hr hs hr2 hs2
  have h0 := ((post_ok (directory_post hord hm) hr).1.1 hs hdry).2 rfl
  have hleft : DirectoryLeft env st path false mode owner group w _ :=
    post_world (lost := lost1) (directory_post (check := check) (touch := touch) hord hm) (fun _ _ _ h => h.1.2)
  have h1 : Same w (perform sys lost1 (directory path false touch mode owner group check) env st w).2 ∨ _ :=
    hleft.imp id (fun h => h.elim (fun h => absurd h.1 (by decide)) (fun h => h.2))
  have hord1 : Ordinary sys tools (perform sys lost1 (directory path false touch mode owner group check) env st w).2 := by
    rcases h1 with h1 | ⟨l, n, k, s, _, _, h1⟩
    · exact h1.ordinary hord
    · rw [h1]
      refine hord.removed ?_
      intro q n hq
      unfold removeMost at hq
      split at hq
      · cases hq
      · exact hq
  exact treeGone_alike hdir h0 h1 (((post_ok (directory_post hord1 hm) hr2).1.1 hs2 hdry).2 rfl)

/-- C40 for `file`, if neither setuid nor setgid is requested. -/
theorem C40_file_repeatable_partial (sys : Sys) (tools : Tools) (env : Env) (st : St) (w : World)
    (hord : Ordinary sys tools w) (hm : PlainModes env st) (hdry : env.dry = false) (path : Str) (touch : Bool)
    (mode owner group : Option Str) (check : Bool) (hown : OwnersSet (inForce env st { fileMode := mode, owner, group }))
    (hbits : NoSetIds (inForce env st { fileMode := mode, owner, group }).fileMode) :
    Repeatable sys (file path true touch mode owner group check) env st w := by
  intro lost lost1 lost2 r r2 hr hs hr2 hs2
  obtain ⟨attr, t, l, he, hmo, hat, _, hlt, hres, ⟨n, hn, hdn, hp, how⟩, m, hmm, hi⟩ := ((post_ok (file_post hord hm) hr).1.1 hs hdry).1 rfl
  obtain ⟨hleft, hcont⟩ := file_left hord hres (post_world (lost := lost1) (file_post (check := check) (touch := touch) (mode := mode) (owner := owner) (group := group) hord hm) (fun _ _ _ h => h.1.2))
  obtain ⟨attr2, t2, l2, he2, hmo2, hat2, _, hlt2, hres2, ⟨n2, hn2, hdn2, hp2, how2⟩, m2, hmm2, hi2⟩ :=
    ((post_ok (file_post hleft.ordinary hm) hr2).1.1 hs2 hdry).1 rfl
  obtain rfl := resolved_eq hleft.res hres2
  have : t2 = t := by
    rw [hmo.file] at hat
    rw [hmo2.file, hat] at hat2
    cases hat2; rfl
  subst this
  obtain ⟨h1, h2⟩ := owned_same hleft.users hleft.groups hown.1 hown.2 (he.owned how) (he2.owned how2)
  have hb := (hbits m _ hmm hi).2
  refine alike_of (.of_now hn) hleft.elsewhere (.of_now hn2) hn.at hn2.at ⟨.inl ?_, fun _ => by rw [hp.exact hlt hb, hp2.exact hlt hb], h1, h2⟩
  rw [hdn.kind, hdn2.kind, hcont]

/-- C40 for `file`, `present=False`. -/
theorem C40_file_removed_repeatable (sys : Sys) (tools : Tools) (env : Env) (st : St) (w : World)
    (hord : Ordinary sys tools w) (hm : PlainModes env st) (hdry : env.dry = false) (path : Str) (touch : Bool)
    (mode owner group : Option Str) (check : Bool) :
    Repeatable sys (file path false touch mode owner group check) env st w := by
  intro lost lost1 lost2 r r2 hr hs hr2 hs2
  have h0 := ((post_ok (file_post hord hm) hr).1.1 hs hdry).2 rfl
  have hleft : FileRest path false w _ := post_world (lost := lost1) (file_post (mode := mode) (owner := owner) (group := group) (check := check) (touch := touch) hord hm) (fun _ _ _ h => h.1.2)
  have h1 : Same w (perform sys lost1 (file path false touch mode owner group check) env st w).2
      ∨ ∃ l n s, resolve w.fs w.cwd path false = .ok l ∧ w.fs l = some n ∧ (perform sys lost1 (file path false touch mode owner group check) env st w).2 = { w.set l none with started := s } :=
    hleft.imp id (fun h => h.elim (fun h => absurd h.1 (by decide)) (fun ⟨_, l, n, s, h1, h2, _, h3⟩ => ⟨l, n, s, h1, h2, h3⟩))
  have hord1 : Ordinary sys tools (perform sys lost1 (file path false touch mode owner group check) env st w).2 := by
    rcases h1 with h1 | ⟨l, n, s, hres, hl, h1⟩
    · exact h1.ordinary hord
    · exact hord.gone (path := path) (.inr ⟨l, n, s, hres, hl, h1⟩)
  exact gone_alike h0 h1 (((post_ok (file_post hord1 hm) hr2).1.1 hs2 hdry).2 rfl)

/-- C40 for `link`, if the path does not lead to a directory, and the target is not the only thing to be changed. -/
theorem C40_link_repeatable_partial (sys : Sys) (tools : Tools) (env : Env) (st : St) (w : World)
    (hord : Ordinary sys tools w) (hm : PlainModes env st) (hdry : env.dry = false) (path target : Str) (touch : Bool)
    (owner group : Option Str) (check : Bool) (hown : OwnersSet (inForce env st { owner, group }))
    (hpl : Plain target) (hdir : Direct w path) (hnd : HasTarget w path target ∨ NotToDirectory w path)
    (honly : ¬ OnlyTargetDiffers w path target (inForce env st { owner, group })) :
    Repeatable sys (link path target true touch owner group check) env st w := by
  intro lost lost1 lost2 r r2 hr hs hr2 hs2
  obtain ⟨attr, l, he, hres, n, t, hn, hln, hk, ht, how⟩ := ((post_ok (link_post hord hm hpl hdir (fun _ => hnd)) hr).1.1 hs hdry).1 rfl
  obtain ⟨hleft, hnd1, hon1⟩ := link_left hord hpl hres hnd (want := inForce env st { owner, group }) (fun ⟨n, t, h⟩ => honly ⟨l, n, t, h⟩)
    (post_world (lost := lost1) (link_post (check := check) (touch := touch) (owner := owner) (group := group) hord hm hpl hdir (fun _ => hnd)) (fun _ _ _ h => h.1.2))
  obtain ⟨attr2, l2, he2, hres2, n2, t2, hn2, hln2, hk2, ht2, how2⟩ :=
    ((post_ok (link_post hleft.ordinary hm hpl (hleft.elsewhere.direct hres hdir) (fun _ => hnd1)) hr2).1.1 hs2 hdry).1 rfl
  obtain rfl := resolved_eq hleft.res hres2
  have how := he.owned (how (by
    rintro ⟨m, t', h0, h1, h2, h3⟩
    exact honly ⟨l, m, t', lookup_of hres h0, h2, h3, he.owned h1⟩))
  have how2 := he2.owned (how2 (by
    rintro ⟨m, t', h0, h1, h2, h3⟩
    refine hon1 m t' h0 h2 h3 ?_
    have hob := he2.owned h1
    refine ⟨fun u hu => ?_, fun u hu => ?_⟩
    · obtain ⟨e, d, hid⟩ := hob.1 u hu
      exact ⟨e, by unfold DenotesUser at d ⊢; rw [← hleft.users]; exact d, hid⟩
    · obtain ⟨e, d, hid⟩ := hob.2 u hu
      exact ⟨e, by unfold DenotesGroup at d ⊢; rw [← hleft.groups]; exact d, hid⟩))
  obtain ⟨h1, h2⟩ := owned_same hleft.users hleft.groups hown.1 hown.2 how how2
  exact alike_of (.of_now hn) hleft.elsewhere (.of_now hn2) hn.at hn2.at ⟨.inr ⟨t, t2, hk, hk2, ht.trans ht2.symm⟩, fun h => absurd hk (h t), h1, h2⟩

/-- C40 for `link`, `present=False`. -/
theorem C40_link_removed_repeatable (sys : Sys) (tools : Tools) (env : Env) (st : St) (w : World)
    (hord : Ordinary sys tools w) (hm : PlainModes env st) (hdry : env.dry = false) (path target : Str) (touch : Bool)
    (owner group : Option Str) (check : Bool) (hpl : Plain target) (hdir : Direct w path) :
    Repeatable sys (link path target false touch owner group check) env st w := by
  intro lost lost1 lost2 r r2 hr hs hr2 hs2
  have h0 := ((post_ok (link_post hord hm hpl hdir (fun h => by cases h)) hr).1.1 hs hdry).2 rfl
  have hleft : LinkRest path target false w _ := post_world (lost := lost1) (link_post (owner := owner) (group := group) (check := check) (touch := touch) hord hm hpl hdir (fun h => by cases h)) (fun _ _ _ h => h.1.2)
  have h1 : Same w (perform sys lost1 (link path target false touch owner group check) env st w).2
      ∨ ∃ l n s, resolve w.fs w.cwd path false = .ok l ∧ w.fs l = some n ∧ (perform sys lost1 (link path target false touch owner group check) env st w).2 = { w.set l none with started := s } :=
    hleft.imp id (fun h => h.elim (fun h => absurd h.1 (by decide)) (fun ⟨_, l, n, s, h1, h2, _, h3⟩ => ⟨l, n, s, h1, h2, h3⟩))
  have hx : Ordinary sys tools (perform sys lost1 (link path target false touch owner group check) env st w).2
      ∧ Direct (perform sys lost1 (link path target false touch owner group check) env st w).2 path := by
    rcases h1 with h1 | ⟨l, n, s, hres, hl, h1⟩
    · refine ⟨h1.ordinary hord, ?_⟩
      unfold Direct
      rw [same_fs h1, same_cwd h1]
      exact hdir
    · refine ⟨hord.gone (path := path) (.inr ⟨l, n, s, hres, hl, h1⟩), ?_⟩
      exact Elsewhere.direct (l := l) ⟨none, s, h1⟩ hres hdir
  exact gone_alike h0 h1 (((post_ok (link_post hx.1 hm hpl hx.2 (fun h => by cases h)) hr2).1.1 hs2 hdry).2 rfl)

/-- C40 for `upload_content`, `upload`, `template_content` and `template`, if neither setuid nor setgid is requested, and no other
content has the same checksum. An upload may be interrupted when only a part of the content is written. -/
theorem C40_store_repeatable_partial (sys : Sys) (tools : Tools) (env : Env) (st : St) (w : World)
    (hord : Ordinary sys tools w) (hm : PlainModes env st) (hdry : env.dry = false)
    (op : Op OpResult) (path : Str) (source : Except Exn Bytes) (mode owner group : Option Str) (check : Bool)
    (hop : Stores sys.sha512 mode owner group check op path source) (hsize : ∀ c, source = .ok c → Modest c.length)
    (hown : OwnersSet (inForce env st { fileMode := mode, owner, group }))
    (hbits : NoSetIds (inForce env st { fileMode := mode, owner, group }).fileMode)
    (hsum : ∀ c other, source = .ok c → sys.sha512 other = sys.sha512 c → other = c) : Repeatable sys op env st w := by
  intro lost lost1 lost2 r r2 hr hs hr2 hs2
  obtain ⟨content, hsrc, attr, l, i, m, he, _, hmm, hi, hi0, hres, n, c, hn, hsn, hk, hc, hp, how⟩ := (post_ok (store_post hop hord hm) hr).1.1 hs hdry
  have hleft := store_left hord hsize hres (post_world (lost := lost1) (store_post hop hord hm) (fun _ _ _ h => h.1.2))
  obtain ⟨content2, hsrc2, attr2, l2, i2, m2, he2, _, hmm2, hi2, hi02, hres2, n2, c2, hn2, hsn2, hk2, hc2, hp2, how2⟩ :=
    (post_ok (store_post hop hleft.ordinary hm) hr2).1.1 hs2 hdry
  obtain rfl := resolved_eq hleft.res hres2
  rw [hsrc] at hsrc2; cases hsrc2
  rw [hmm] at hmm2; cases hmm2
  rw [hi] at hi2; cases hi2
  obtain ⟨i, rfl⟩ : ∃ k : Nat, i = (k : Int) := ⟨i.toNat, (Int.toNat_of_nonneg hi0).symm⟩
  obtain ⟨b1, b2⟩ := hbits m i hmm hi
  have hmod : ((i : Int) % 4096).toNat = i := by omega
  rw [hmod] at hp hp2
  obtain ⟨h1, h2⟩ := owned_same hleft.users hleft.groups hown.1 hown.2 (he.owned how) (he2.owned how2)
  refine alike_of (.of_now hn) hleft.elsewhere (.of_now hn2) hn.at hn2.at ⟨.inl ?_, fun _ => by rw [hp.exact b1 b2, hp2.exact b1 b2], h1, h2⟩
  rw [hk, hk2, hsum _ _ hsrc hc, hsum _ _ hsrc hc2]

/-- A connection that breaks with the n-th request; it may have been carried out. -/
def Example.breaks (n : Nat) (done : Bool) : Nat → Option Bool := fun i => if i = n then some done else none

/-- The connection breaks after the directory was created and before its mode is set; the next run completes the work. -/
example : let op := directory p!"/home/bob" true false (some p!"2750") (some p!"alice") none true
    let w1 := (perform Example.sys (Example.breaks 6 true) op Example.env Example.st Example.host)
    (match w1.1 with | .ok _ => false | .error _ => true) = true ∧ (w1.2.fs [p!"home", p!"bob"]).map (fun n => (n.perm, n.uid, n.gid)) = some (0o2700, 0, 100)
    ∧ Example.reports (perform Example.sys Example.always op Example.env Example.st w1.2).1 true true = true
    ∧ ((perform Example.sys Example.always op Example.env Example.st w1.2).2.fs [p!"home", p!"bob"]).map (fun n => (n.perm, n.uid, n.gid)) = some (0o2750, 1000, 0) :=
  ⟨by decide +kernel, by decide +kernel, by decide +kernel, by decide +kernel⟩

/-- C40 is false for setuid: an uninterrupted `file(path="/tmp/x", mode="4755", owner="alice")` leads to mode 755, but if the
connection breaks when the last command has been carried out, and the operation is done again, the mode is 4755. -/
theorem C40_mode_refuted :
    let op := file p!"/tmp/x" true false (some p!"4755") (some p!"alice") none true
    let w1 := (perform Example.sys (Example.breaks 8 true) op Example.env Example.st Example.host)
    (match w1.1 with | .ok _ => false | .error _ => true) = true
    ∧ Example.reports (perform Example.sys Example.always op Example.env Example.st Example.host).1 true true = true
    ∧ Example.reports (perform Example.sys Example.always op Example.env Example.st w1.2).1 true true = true
    ∧ ((perform Example.sys Example.always op Example.env Example.st Example.host).2.fs [p!"tmp", p!"x"]).map (·.perm) = some 0o755
    ∧ ((perform Example.sys Example.always op Example.env Example.st w1.2).2.fs [p!"tmp", p!"x"]).map (·.perm) = some 0o4755 :=
  ⟨by decide +kernel, by decide +kernel, by decide +kernel, by decide +kernel, by decide +kernel⟩

end Verif.Ops
