/-
C35-C38: after a file operation has succeeded, the host is as requested.
-/
import Verif.Ops.ManageLemmas
import Verif.Ops.Example

namespace Verif.Ops

open Script Remote

/-- Neither the directory nor, if it is missing, its parent has special bits that new modes or new directories inherit. -/
def NoSpecialBits (w : World) (path : Str) : Prop :=
  ∀ l, resolve w.fs w.cwd path false = .ok l →
    (∀ n, w.fs l = some n → n.perm &&& 0o6000 = 0) ∧ (w.fs l = none → ∀ p, w.fs l.dropLast = some p → p.perm &&& 0o2000 = 0)

section
variable {w w' : World} {path : Str} {l : Loc} {n : Node}

theorem now_lookup (h : Now path l w (some n) w') : lookup w'.fs w'.cwd path false = .ok (l, n) := h.lookup w'.cwd

theorem inheritSetgid_special (fs : Loc → Option Node) (l : Loc) : inheritSetgid fs l = 0 ∨ inheritSetgid fs l = 0o2000 := by
  unfold inheritSetgid
  split
  · next d _ =>
    cases hb : d.perm.testBit 10 with
    | false =>
      refine .inl ?_
      apply Nat.eq_of_testBit_eq
      intro i
      rw [Nat.testBit_and, Nat.zero_testBit, show (0o2000 : Nat) = 2 ^ 10 from rfl, Nat.testBit_two_pow]
      by_cases h : 10 = i
      · subst h; rw [hb]; rfl
      · simp [h]
    | true =>
      refine .inr ?_
      apply Nat.eq_of_testBit_eq
      intro i
      rw [Nat.testBit_and, show (0o2000 : Nat) = 2 ^ 10 from rfl, Nat.testBit_two_pow]
      by_cases h : 10 = i
      · subst h; rw [hb]; rfl
      · simp [h]
  · exact .inl rfl

theorem or_special {k v : Nat} (h : k &&& 0o6000 = k) : (k ||| v) ||| 0o6000 = v ||| 0o6000 := by
  apply Nat.eq_of_testBit_eq
  intro i
  have := congrArg (·.testBit i) h
  simp only [Nat.testBit_or, Nat.testBit_and] at this ⊢
  cases hk : k.testBit i <;> cases h6 : (0o6000 : Nat).testBit i <;> simp_all

theorem keptBits_special (w : World) (l : Loc) : keptBits w l &&& 0o6000 = keptBits w l := by
  unfold keptBits
  split
  · rw [Nat.and_assoc]; rfl
  · rcases inheritSetgid_special w.fs l with h | h <;> rw [h] <;> rfl

theorem dirPerm_special (t : Str) (w : World) (l : Loc) : dirPerm t w l ||| 0o6000 = octalValue t ||| 0o6000 := by
  unfold dirPerm
  split
  · exact or_special (keptBits_special w l)
  · rfl

theorem dirPerm_covers (t : Str) (w : World) (l : Loc) : dirPerm t w l &&& octalValue t = octalValue t := by
  unfold dirPerm
  split
  · apply Nat.eq_of_testBit_eq
    intro i
    simp only [Nat.testBit_or, Nat.testBit_and]
    cases (octalValue t).testBit i <;> simp
  · exact Nat.and_self _

theorem dirPerm_exact {t : Str} (hr : resolve w.fs w.cwd path false = .ok l) (h : NoSpecialBits w path) : dirPerm t w l = octalValue t := by
  have hk : keptBits w l = 0 := by
    obtain ⟨h1, h2⟩ := h l hr
    unfold keptBits
    cases hl : w.fs l with
    | some n => exact h1 n hl
    | none =>
      show inheritSetgid w.fs l = 0
      unfold inheritSetgid
      cases hp : w.fs l.dropLast with
      | none => rfl
      | some p => exact h2 hl p hp
  unfold dirPerm
  split
  · rw [hk, Nat.zero_or]
  · rfl

end

/-! ### C35 -/

/-- C35. After `directory` has succeeded (not in a dry run), the path is a directory with the requested owner and group. All
mode bits except setuid and setgid are exactly as requested, and all requested bits are set. Without such bits on the
directory (or on the parent of a new one) the mode is exactly the requested one. -/
theorem C35_directory_converges_partial (sys : Sys) (tools : Tools) (lost : Nat → Option Bool) (env : Env) (st : St) (w : World) (hord : Ordinary sys tools w)
    (hm : PlainModes env st) (hdry : env.dry = false) (path : Str) (touch : Bool) (mode owner group : Option Str) (check : Bool) (r : OpResult)
    (hr : (perform sys lost (directory path true touch mode owner group check) env st w).1 = .ok r) (hs : r.success = true) :
    let want := inForce env st { dirMode := mode, owner, group }
    let w' := (perform sys lost (directory path true touch mode owner group check) env st w).2
    ∃ l n m i, lookup w'.fs w'.cwd path false = .ok (l, n) ∧ n.kind = .dir ∧ OwnedBy w want n
      ∧ want.dirMode = some m ∧ Py.parseInt 8 m = some (i : Nat) ∧ n.perm ||| 0o6000 = i ||| 0o6000 ∧ n.perm &&& i = i
      ∧ (NoSpecialBits w path → n.perm = i) := by
  intro want w'
  have h := (post_ok (directory_post hord hm) hr).1.1 hs hdry
  obtain ⟨attr, t, l, he, _, _, _, _, hres, ⟨n, hn, hdn, hp, how⟩, m, hmm, hi⟩ := h.1 rfl
  refine ⟨l, n, m, octalValue t, now_lookup hn, hdn.kind, he.owned how, hmm, hi, ?_, ?_, fun hb => ?_⟩
  · rw [hp]; exact dirPerm_special t w l
  · rw [hp]; exact dirPerm_covers t w l
  · rw [hp]; exact dirPerm_exact hres hb

/-- C35, `present=False`: nothing is at the path. -/
theorem C35_directory_removed (sys : Sys) (tools : Tools) (lost : Nat → Option Bool) (env : Env) (st : St) (w : World) (hord : Ordinary sys tools w)
    (hm : PlainModes env st) (hdry : env.dry = false) (path : Str) (touch : Bool) (mode owner group : Option Str) (check : Bool) (r : OpResult)
    (hr : (perform sys lost (directory path false touch mode owner group check) env st w).1 = .ok r) (hs : r.success = true) :
    let w' := (perform sys lost (directory path false touch mode owner group check) env st w).2
    lookup w'.fs w'.cwd path false = .error ENOENT :=
  ((((post_ok (directory_post hord hm) hr).1.1 hs hdry).2 rfl)).lookup

/-- C35 is false for the mode: `directory(path="/home", mode="755")` on a host where `/home` has mode 2775 succeeds, but the
mode is 2755 afterwards. -/
theorem C35_mode_refuted :
    let op := directory p!"/home" true false (some p!"755") none none true
    (∃ r, (perform Example.sys Example.always op Example.env Example.st Example.host).1 = .ok r ∧ r.success = true)
    ∧ ((perform Example.sys Example.always op Example.env Example.st Example.host).2.fs [p!"home"]).map (·.perm) = some 0o2755 := by
  exact ⟨⟨_, rfl, by decide +kernel⟩, by decide +kernel⟩

/-- A directory is created, with everything as requested. -/
example : let op := directory p!"/home/bob" true false (some p!"2750") (some p!"alice") none true
    let x := perform Example.sys Example.always op Example.env Example.st Example.host
    (∃ r, x.1 = .ok r ∧ r.success = true ∧ r.changed = true) ∧ Ordinary Example.sys Example.tools Example.host ∧ PlainModes Example.env Example.st
    ∧ (x.2.fs [p!"home", p!"bob"]).map (fun n => (n.perm, n.uid, n.gid)) = some (0o2750, 1000, 0) :=
  ⟨⟨_, rfl, by decide +kernel, by decide +kernel⟩, Example.ordinary, Example.plainModes, by decide +kernel⟩

/-! ### C36 -/

theorem FilePerm.within {v perm : Nat} (h : FilePerm v perm) : perm &&& v = perm := by
  rcases h with rfl | rfl | rfl
  · exact Nat.and_self _
  · rw [Nat.and_assoc, Nat.and_comm _ v, ← Nat.and_assoc, Nat.and_self]
  · rw [Nat.and_assoc, Nat.and_comm _ v, ← Nat.and_assoc, Nat.and_self]

/-- C36. After `file` has succeeded (not in a dry run), the path is a regular file with the requested owner and group, the
content it had before, or empty. All mode bits except setuid and setgid are exactly as requested, and no bits are set that
were not requested. If neither setuid nor setgid is requested, the mode is exactly the requested one. -/
theorem C36_file_converges_partial (sys : Sys) (tools : Tools) (lost : Nat → Option Bool) (env : Env) (st : St) (w : World) (hord : Ordinary sys tools w)
    (hm : PlainModes env st) (hdry : env.dry = false) (path : Str) (touch : Bool) (mode owner group : Option Str) (check : Bool) (r : OpResult)
    (hr : (perform sys lost (file path true touch mode owner group check) env st w).1 = .ok r) (hs : r.success = true) :
    let want := inForce env st { fileMode := mode, owner, group }
    let w' := (perform sys lost (file path true touch mode owner group check) env st w).2
    ∃ l n c m i, lookup w'.fs w'.cwd path false = .ok (l, n) ∧ n.kind = .file c ∧ OwnedBy w want n
      ∧ resolve w.fs w.cwd path false = .ok l ∧ (∀ old, w.fs l = some old → old.kind = .file c) ∧ (w.fs l = none → c = [])
      ∧ want.fileMode = some m ∧ Py.parseInt 8 m = some (i : Nat) ∧ n.perm &&& 0o1777 = i &&& 0o1777 ∧ n.perm &&& i = n.perm
      ∧ (i &&& 0o6000 = 0 → n.perm = i) := by
  intro want w'
  have h := (post_ok (file_post hord hm) hr).1.1 hs hdry
  obtain ⟨attr, t, l, he, _, _, _, hlt, hres, ⟨n, hn, hdn, hp, how⟩, m, hmm, hi⟩ := h.1 rfl
  refine ⟨l, n, contentAt w l, m, octalValue t, now_lookup hn, hdn.kind, he.owned how, hres, hdn.was, fun h0 => ?_, hmm, hi, hp.low, hp.within,
    fun h6 => hp.exact hlt h6⟩
  unfold contentAt; rw [h0]

/-- C36, `present=False`: nothing is at the path. -/
theorem C36_file_removed (sys : Sys) (tools : Tools) (lost : Nat → Option Bool) (env : Env) (st : St) (w : World) (hord : Ordinary sys tools w)
    (hm : PlainModes env st) (hdry : env.dry = false) (path : Str) (touch : Bool) (mode owner group : Option Str) (check : Bool) (r : OpResult)
    (hr : (perform sys lost (file path false touch mode owner group check) env st w).1 = .ok r) (hs : r.success = true) :
    let w' := (perform sys lost (file path false touch mode owner group check) env st w).2
    lookup w'.fs w'.cwd path false = .error ENOENT :=
  ((((post_ok (file_post hord hm) hr).1.1 hs hdry).2 rfl)).lookup

/-- C36 is false for setuid: `file(path="/tmp/x", mode="4755", owner="alice")` succeeds, but the mode is 755 afterwards,
because the owner is set after the mode. -/
theorem C36_mode_refuted :
    let op := file p!"/tmp/x" true false (some p!"4755") (some p!"alice") none true
    (∃ r, (perform Example.sys Example.always op Example.env Example.st Example.host).1 = .ok r ∧ r.success = true)
    ∧ ((perform Example.sys Example.always op Example.env Example.st Example.host).2.fs [p!"tmp", p!"x"]).map (·.perm) = some 0o755 := by
  exact ⟨⟨_, rfl, by decide +kernel⟩, by decide +kernel⟩

/-- An existing file gets another owner and mode and keeps its content. -/
example : let op := file p!"/etc/motd" true true (some p!"640") none (some p!"users") true
    let x := perform Example.sys Example.always op Example.env Example.st Example.host
    (∃ r, x.1 = .ok r ∧ r.success = true ∧ r.changed = true)
    ∧ (x.2.fs [p!"etc", p!"motd"]).map (fun n => (n.perm, n.uid, n.gid)) = some (0o640, 0, 100)
    ∧ (x.2.fs [p!"etc", p!"motd"]).map (fun n => n.kind == .file [104, 105, 10]) = some true :=
  ⟨⟨_, rfl, by decide +kernel, by decide +kernel⟩, by decide +kernel, by decide +kernel⟩

/-! ### C37 -/

/-- The link exists, has the wanted owner and group, but another target. -/
def OnlyTargetDiffers (w : World) (path target : Str) (want : Settings) : Prop :=
  ∃ l n t, lookup w.fs w.cwd path false = .ok (l, n) ∧ n.kind = .link t ∧ Py.encodeEscape t ≠ Py.encodeEscape target ∧ OwnedBy w want n

/-- C37. After `link` has succeeded (not in a dry run), the path is a symbolic link to the requested target (the same bytes
are stored), provided that the path did not lead to a directory before. It has the requested owner and group, provided that
the target was not the only thing to be changed. -/
theorem C37_link_converges_partial (sys : Sys) (tools : Tools) (lost : Nat → Option Bool) (env : Env) (st : St) (w : World) (hord : Ordinary sys tools w)
    (hm : PlainModes env st) (hdry : env.dry = false) (path target : Str) (touch : Bool) (owner group : Option Str) (check : Bool) (hpl : Plain target)
    (hdir : Direct w path) (hnd : HasTarget w path target ∨ NotToDirectory w path) (r : OpResult)
    (hr : (perform sys lost (link path target true touch owner group check) env st w).1 = .ok r) (hs : r.success = true) :
    let want := inForce env st { owner, group }
    let w' := (perform sys lost (link path target true touch owner group check) env st w).2
    ∃ l n t, lookup w'.fs w'.cwd path false = .ok (l, n) ∧ n.kind = .link t ∧ Py.encodeEscape t = Py.encodeEscape target
      ∧ (¬ OnlyTargetDiffers w path target want → OwnedBy w want n) := by
  intro want w'
  have h := (post_ok (link_post hord hm hpl hdir (fun _ => hnd)) hr).1.1 hs hdry
  obtain ⟨attr, l, he, hres, n, t, hn, hln, hk, ht, how⟩ := h.1 rfl
  refine ⟨l, n, t, now_lookup hn, hk, ht, fun hx => he.owned (how ?_)⟩
  rintro ⟨m, t', h0, h1, h2, h3⟩
  exact hx ⟨l, m, t', lookup_of hres h0, h2, h3, he.owned h1⟩

/-- C37, `present=False`: nothing is at the path. -/
theorem C37_link_removed (sys : Sys) (tools : Tools) (lost : Nat → Option Bool) (env : Env) (st : St) (w : World) (hord : Ordinary sys tools w)
    (hm : PlainModes env st) (hdry : env.dry = false) (path target : Str) (touch : Bool) (owner group : Option Str) (check : Bool) (hpl : Plain target)
    (hdir : Direct w path) (r : OpResult)
    (hr : (perform sys lost (link path target false touch owner group check) env st w).1 = .ok r) (hs : r.success = true) :
    let w' := (perform sys lost (link path target false touch owner group check) env st w).2
    lookup w'.fs w'.cwd path false = .error ENOENT :=
  ((((post_ok (link_post hord hm hpl hdir (fun h => by cases h)) hr).1.1 hs hdry).2 rfl)).lookup

/-- C37 is false for a link that leads to a directory: `link(path="/link", target="/home")` on a host where `/link` points to
`/etc` succeeds and leaves it as it is. -/
theorem C37_target_refuted :
    let op := link p!"/link" p!"/home" true false none none true
    (∃ r, (perform Example.sys Example.always op Example.env Example.st Example.host).1 = .ok r ∧ r.success = true)
    ∧ ((perform Example.sys Example.always op Example.env Example.st Example.host).2.fs [p!"link"]).map (fun n => n.kind == .link p!"/etc") = some true := by
  exact ⟨⟨_, rfl, by decide +kernel⟩, by decide +kernel⟩

/-- A host where `/dangling` belongs to alice. -/
def Example.host2 : World :=
  Example.host.set [p!"dangling"] (some { Remote.Example.dirNode 0o777 with kind := .link p!"nowhere", uid := 1000 })

/-- C37 is false for the owner if only the target is to be changed: `link(path="/dangling", target="/x", owner="alice")` on a
host where `/dangling` belongs to alice succeeds, but afterwards it belongs to root. -/
theorem C37_owner_refuted :
    let op := link p!"/dangling" p!"/x" true false (some p!"alice") none true
    (∃ r, (perform Example.sys Example.always op Example.env Example.st Example.host2).1 = .ok r ∧ r.success = true)
    ∧ ((perform Example.sys Example.always op Example.env Example.st Example.host2).2.fs [p!"dangling"]).map (·.uid) = some 0
    ∧ (Example.host2.fs [p!"dangling"]).map (·.uid) = some 1000 := by
  exact ⟨⟨_, rfl, by decide +kernel⟩, by decide +kernel, by decide +kernel⟩

/-- A simple sufficient condition for `Direct`: no component is `..`, and the directories on the way are real directories. -/
theorem direct_of_dirs (w : World) (path : Str) (ha : isAbs path = true) (hup : p!".." ∉ components path)
    (hd : ∀ k < (components path).length, ∃ n, w.fs ((components path).take k) = some n ∧ n.kind = .dir) : Direct w path := by
  have key : ∀ (fs : Loc → Option Node) (on : Loc → List Str → Except Int Loc) (cs : List Str) (done : Loc), done ++ cs = components path →
      (∀ k < (components path).length, ∃ n, fs ((components path).take k) = some n ∧ n.kind = .dir) →
      walkAux fs false on cs done = .ok (components path) := by
    intro fs on cs
    induction cs with
    | nil => intro done h _; simp only [List.append_nil] at h; rw [← h]; rfl
    | cons c r ih =>
      intro done h hd
      have hc : c ≠ p!".." := fun hc => hup (by rw [← h, hc]; simp)
      have hlen : done.length < (components path).length := by rw [← h]; simp
      obtain ⟨n, hn, hk⟩ := hd done.length hlen
      have ht : (components path).take done.length = done := by rw [← h]; simp
      rw [ht] at hn
      rw [walkAux_cons, hn, shape_dir.mpr hk]
      simp only [if_neg hc]
      have h' : (done ++ [c]) ++ r = components path := by rw [← h]; simp
      cases r with
      | nil =>
        rw [List.append_nil] at h'
        rw [h']
        cases hs : shape (fs (components path)) <;> simp [walkAux]
      | cons c' r' =>
        have hlen' : done.length + 1 < (components path).length := by rw [← h]; simp
        obtain ⟨n', hn', hk'⟩ := hd (done.length + 1) hlen'
        have ht' : (components path).take (done.length + 1) = done ++ [c] := by
          rw [← h', List.take_left' (by simp)]
        rw [ht'] at hn'
        rw [hn', shape_dir.mpr hk']
        exact ih _ h' hd
  have hres : ∀ fs, (∀ k < (components path).length, ∃ n, fs ((components path).take k) = some n ∧ n.kind = .dir) →
      resolve fs w.cwd path false = .ok (components path) := by
    intro fs hd
    unfold resolve
    rw [if_neg (by rintro rfl; cases ha), ha]
    exact key fs _ _ [] rfl hd
  intro l fs hr hsame
  rw [hres w.fs hd] at hr
  cases hr
  apply hres
  intro k hk
  rw [hsame]
  · exact hd k hk
  · rw [Bool.eq_false_iff]
    intro hp
    have := (List.isPrefixOf_iff_prefix.mp hp).length_le
    simp only [List.length_take] at this
    omega

/-- A link is created; the hypotheses of C37 are met. -/
example : Direct Example.host p!"/tmp/l" ∧ NotToDirectory Example.host p!"/tmp/l" ∧ Plain p!"/etc"
    ∧ ∃ r, (perform Example.sys Example.always (link p!"/tmp/l" p!"/etc" true false (some p!"alice") none true) Example.env Example.st Example.host).1 = .ok r
      ∧ r.success = true := by
  refine ⟨direct_of_dirs _ _ rfl (by decide) ?_, ?_, ⟨by unfold Text; decide, by unfold Modest; decide⟩, _, rfl, by decide +kernel⟩
  · intro k hk
    have hk : k < 2 := hk
    match k, hk with
    | 0, _ => exact ⟨_, rfl, rfl⟩
    | 1, _ => exact ⟨_, rfl, rfl⟩
  · intro l n h
    exact absurd h (by intro h; cases h)

/-! ### C38 -/

/-- C38. After `upload_content`, `upload`, `template_content` or `template` have succeeded (not in a dry run), the path is a
regular file with the given content, provided that no other content has the same checksum, and with the requested owner and
group. All mode bits except setuid and setgid are exactly as requested, and no bits are set that were not requested. If
neither setuid nor setgid is requested, the mode is exactly the requested one. -/
theorem C38_store_converges_partial (sys : Sys) (tools : Tools) (lost : Nat → Option Bool) (env : Env) (st : St) (w : World) (hord : Ordinary sys tools w)
    (hm : PlainModes env st) (hdry : env.dry = false) (op : Op OpResult) (path : Str) (source : Except Exn Bytes) (mode owner group : Option Str) (check : Bool)
    (hop : Stores sys.sha512 mode owner group check op path source) (r : OpResult)
    (hr : (perform sys lost op env st w).1 = .ok r) (hs : r.success = true) :
    let want := inForce env st { fileMode := mode, owner, group }
    let w' := (perform sys lost op env st w).2
    ∃ content l n c m i, source = .ok content ∧ lookup w'.fs w'.cwd path false = .ok (l, n) ∧ n.kind = .file c ∧ sys.sha512 c = sys.sha512 content
      ∧ ((∀ other, sys.sha512 other = sys.sha512 content → other = content) → c = content) ∧ OwnedBy w want n
      ∧ want.fileMode = some m ∧ Py.parseInt 8 m = some (i : Nat) ∧ n.perm &&& 0o1777 = i % 0o10000 &&& 0o1777 ∧ n.perm &&& i = n.perm
      ∧ (i &&& 0o6000 = 0 → n.perm = i % 0o10000) := by
  intro want w'
  have h := (post_ok (store_post hop hord hm) hr).1.1 hs hdry
  obtain ⟨content, hsrc, attr, l, i, m, he, _, hmm, hi, hi0, hres, n, c, hn, _, hk, hc, hp, how⟩ := h
  obtain ⟨i, rfl⟩ : ∃ k : Nat, i = (k : Int) := ⟨i.toNat, (Int.toNat_of_nonneg hi0).symm⟩
  have hmod : ((i : Int) % 4096).toNat = i % 0o10000 := by omega
  rw [hmod] at hp
  have hand : i % 0o10000 &&& i = i % 0o10000 := by
    apply Nat.eq_of_testBit_eq
    intro j
    rw [Nat.testBit_and, show (0o10000 : Nat) = 2 ^ 12 from rfl, Nat.testBit_mod_two_pow]
    cases decide (j < 12) <;> cases i.testBit j <;> rfl
  refine ⟨content, l, n, c, m, i, hsrc, now_lookup hn, hk, hc, fun h => h c hc, he.owned how, hmm, hi, hp.low, ?_, fun h6 => ?_⟩
  · rw [← hp.within, Nat.and_assoc, hand]
  · refine hp.exact (Nat.mod_lt _ (by decide)) ?_
    apply Nat.eq_of_testBit_eq
    intro j
    have := congrArg (·.testBit j) h6
    rw [Nat.testBit_and, show (0o10000 : Nat) = 2 ^ 12 from rfl, Nat.testBit_mod_two_pow]
    simp only [Nat.testBit_and, Nat.zero_testBit] at this ⊢
    cases decide (j < 12)
    · simp
    · simpa using this

/-- C38 is false for setuid, as C36: the owner is set after the mode. -/
theorem C38_mode_refuted :
    let op := uploadContent Example.sys.sha512 (.bytes [65]) p!"/tmp/x" (some p!"4755") (some p!"alice") none true
    (∃ r, (perform Example.sys Example.always op Example.env Example.st Example.host).1 = .ok r ∧ r.success = true)
    ∧ ((perform Example.sys Example.always op Example.env Example.st Example.host).2.fs [p!"tmp", p!"x"]).map (·.perm) = some 0o755 := by
  exact ⟨⟨_, rfl, by decide +kernel⟩, by decide +kernel⟩

/-- C38 is false for modes beyond 7777: `upload_content(..., mode="10644")` succeeds, and the mode is 644 afterwards. -/
theorem C38_large_mode_refuted :
    let op := uploadContent Example.sys.sha512 (.bytes [65]) p!"/tmp/x" (some p!"10644") none none true
    (∃ r, (perform Example.sys Example.always op Example.env Example.st Example.host).1 = .ok r ∧ r.success = true)
    ∧ ((perform Example.sys Example.always op Example.env Example.st Example.host).2.fs [p!"tmp", p!"x"]).map (·.perm) = some 0o644 := by
  exact ⟨⟨_, rfl, by decide +kernel⟩, by decide +kernel⟩

/-- An existing file is overwritten. -/
example : let op := uploadContent Example.sys.sha512 (.str p!"hello") p!"/etc/motd" (some p!"644") (some p!"alice") none true
    let x := perform Example.sys Example.always op Example.env Example.st Example.host
    Stores Example.sys.sha512 (some p!"644") (some p!"alice") none true op p!"/etc/motd" (.ok [104, 101, 108, 108, 111])
    ∧ (∃ r, x.1 = .ok r ∧ r.success = true ∧ r.changed = true)
    ∧ (x.2.fs [p!"etc", p!"motd"]).map (fun n => (n.perm, n.uid, n.gid)) = some (0o644, 1000, 0)
    ∧ (x.2.fs [p!"etc", p!"motd"]).map (fun n => n.kind == .file [104, 101, 108, 108, 111]) = some true :=
  ⟨.content (.str p!"hello") p!"/etc/motd", ⟨_, rfl, by decide +kernel, by decide +kernel⟩, by decide +kernel, by decide +kernel⟩

end Verif.Ops
