/-
Earlier wishes for a path leave no trace (C112).
-/
import Verif.Ops.HistoryLemmas

namespace Verif.Ops

open Script Remote

/-- C112, stored content: whatever was stored, made or removed at the path before, with whatever arguments, and however that ended: if an
upload or a template succeeds, the host is as if it had been the only one. Assumed: neither setuid nor setgid is requested, and no other
content has the same checksum. -/
theorem C112_store_partial (sys : Sys) (tools : Tools) (env : Env) (st : St) (w : World) (hord : Ordinary sys tools w) (hm : PlainModes env st)
    (hdry : env.dry = false) (op : Op OpResult) (path : Str) (hdir : Direct w path) (source : Except Exn Bytes) (mode owner group : Option Str) (check : Bool)
    (hop : Stores sys.sha512 mode owner group check op path source)
    (hown : OwnersSet (inForce env st { fileMode := mode, owner, group }))
    (hbits : NoSetIds (inForce env st { fileMode := mode, owner, group }).fileMode)
    (hsum : ∀ c other, source = .ok c → sys.sha512 other = sys.sha512 c → other = c)
    (earlier : List Earlier) (hearlier : ∀ a ∈ earlier, PlainModes a.env a.st ∧ AtPath sys path a.op) (lost lost' : Nat → Option Bool) (r r' : OpResult) :
    let alone := perform sys lost op env st w
    let last := perform sys lost' op env st (attempted sys earlier w)
    alone.1 = .ok r → r.success = true → last.1 = .ok r' → r'.success = true → Alike alone.2 last.2 := by
  intro alone last hr hs hr2 hs2
  obtain ⟨hord1, _, hmade⟩ := attempts_made hord hdir hearlier
  obtain ⟨content, hsrc, attr, l, i, m, he, _, hmm, hi, hi0, hres, n, c, hn, hsn, hk, hc, hp, how⟩ := (post_ok (store_post hop hord hm) hr).1.1 hs hdry
  obtain ⟨content2, hsrc2, attr2, l2, i2, m2, he2, _, hmm2, hi2, hi02, hres2, n2, c2, hn2, hsn2, hk2, hc2, hp2, how2⟩ :=
    (post_ok (store_post hop hord1 hm) hr2).1.1 hs2 hdry
  rcases hmade with ⟨e, h, _⟩ | ⟨l', h, hleft⟩
  · rw [hres] at h; cases h
  obtain rfl := resolved_eq hres h
  obtain rfl := resolved_eq hleft.res hres2
  rw [hsrc] at hsrc2; cases hsrc2
  rw [hmm] at hmm2; cases hmm2
  rw [hi] at hi2; cases hi2
  obtain ⟨i, rfl⟩ : ∃ k : Nat, i = (k : Int) := ⟨i.toNat, (Int.toNat_of_nonneg hi0).symm⟩
  obtain ⟨b1, b2⟩ := hbits m i hmm hi
  have hmod : ((i : Int) % 4096).toNat = i := by omega
  rw [hmod] at hp hp2
  obtain ⟨h1, h2⟩ := owned_same hleft.users hleft.groups hown.1 hown.2 (he.owned how) (he2.owned how2)
  refine alike_of (.of_now hn) hleft.elsewhere (.of_now hn2) hn.at hn2.at ⟨.inl ?_, fun _ => by rw [hp.exact b1 b2, hp2.exact b1 b2], h1, h2⟩
  rw [hk, hk2, hsum _ _ hsrc hc, hsum _ _ hsrc hc2]

/-- C112, removal: whatever was stored, made or removed at the path before, once `file` with `present=False` has succeeded, the host is as
if it had been the only one. -/
theorem C112_removed (sys : Sys) (tools : Tools) (env : Env) (st : St) (w : World) (hord : Ordinary sys tools w) (hm : PlainModes env st)
    (hdry : env.dry = false) (path : Str) (hdir : Direct w path) (touch : Bool) (mode owner group : Option Str) (check : Bool)
    (earlier : List Earlier) (hearlier : ∀ a ∈ earlier, PlainModes a.env a.st ∧ AtPath sys path a.op) (lost lost' : Nat → Option Bool) (r r' : OpResult) :
    let op := file path false touch mode owner group check
    let alone := perform sys lost op env st w
    let last := perform sys lost' op env st (attempted sys earlier w)
    alone.1 = .ok r → r.success = true → last.1 = .ok r' → r'.success = true → Alike alone.2 last.2 := by
  intro op alone last hr hs hr2 hs2
  obtain ⟨hord1, _, hmade⟩ := attempts_made hord hdir hearlier
  have h0 : Gone path w alone.2 := ((post_ok (file_post hord hm) hr).1.1 hs hdry).2 rfl
  have h2 : Gone path (attempted sys earlier w) last.2 := ((post_ok (file_post hord1 hm) hr2).1.1 hs2 hdry).2 rfl
  rcases hmade with ⟨e, h, hsame⟩ | ⟨l, h, hleft⟩
  · have g0 := gone_nowhere h (show Same w w from rfl) h0
    have g2 := gone_nowhere h hsame h2
    refine alike_of_fs (by rw [g2.2, g0.2]) ?_
    funext q
    rw [g0.1 q id, g2.1 q id]
  · obtain ⟨o, s, he⟩ := hleft.elsewhere
    obtain ⟨s0, e0⟩ := gone_set h h0
    obtain ⟨s2, e2⟩ := gone_set hleft.res h2
    refine alike_of_fs (by rw [e2, e0, he]; rfl) ?_
    rw [e2, e0, he]
    funext q
    simp only [World.set, setNode]
    split <;> rfl

/-- C112, file: whatever attributes `file` set before, if `file` succeeds, the host is as if it had been the only one. Assumed: neither
setuid nor setgid is requested at last. -/
theorem C112_file_partial (sys : Sys) (tools : Tools) (env : Env) (st : St) (w : World) (hord : Ordinary sys tools w) (hm : PlainModes env st)
    (hdry : env.dry = false) (path : Str) (touch : Bool) (mode owner group : Option Str) (check : Bool)
    (hown : OwnersSet (inForce env st { fileMode := mode, owner, group }))
    (hbits : NoSetIds (inForce env st { fileMode := mode, owner, group }).fileMode)
    (earlier : List Earlier)
    (hearlier : ∀ a ∈ earlier, PlainModes a.env a.st ∧ ∃ touch mode owner group check, a.op = file path true touch mode owner group check)
    (lost lost' : Nat → Option Bool) (r r' : OpResult) :
    let op := file path true touch mode owner group check
    let alone := perform sys lost op env st w
    let last := perform sys lost' op env st (attempted sys earlier w)
    alone.1 = .ok r → r.success = true → last.1 = .ok r' → r'.success = true → Alike alone.2 last.2 := by
  intro op alone last hr hs hr2 hs2
  obtain ⟨attr, t, l, he, hmo, hat, _, hlt, hres, ⟨n, hn, hdn, hp, how⟩, m, hmm, hi⟩ := ((post_ok (file_post hord hm) hr).1.1 hs hdry).1 rfl
  obtain ⟨hleft, hcont⟩ := contents_kept hord hres hearlier
  obtain ⟨attr2, t2, l2, he2, hmo2, hat2, _, hlt2, hres2, ⟨n2, hn2, hdn2, hp2, how2⟩, m2, hmm2, hi2⟩ :=
    ((post_ok (file_post hleft.ordinary hm) hr2).1.1 hs2 hdry).1 rfl
  obtain rfl := resolved_eq hleft.res hres2
  have : t2 = t := by
    rw [hmo.file] at hat
    rw [hmo2.file, hat] at hat2
    cases hat2; rfl
  subst this
  obtain ⟨h1, h2⟩ := owned_same hleft.users hleft.groups hown.1 hown.2 (he.owned how) (he2.owned how2)
  have hb := (hbits m _ hmm hi).2
  refine alike_of (.of_now hn) hleft.elsewhere (.of_now hn2) hn.at hn2.at ⟨.inl ?_, fun _ => by rw [hp.exact hlt hb, hp2.exact hlt hb], h1, h2⟩
  rw [hdn.kind, hdn2.kind, hcont]

/-- C112, directory: whatever attributes `directory` set before, if `directory` succeeds, the host is as if it had been the only one. Assumed:
neither setuid nor setgid was requested before. -/
theorem C112_directory_partial (sys : Sys) (tools : Tools) (env : Env) (st : St) (w : World) (hord : Ordinary sys tools w) (hm : PlainModes env st)
    (hdry : env.dry = false) (path : Str) (touch : Bool) (mode owner group : Option Str) (check : Bool)
    (hown : OwnersSet (inForce env st { dirMode := mode, owner, group })) (earlier : List Earlier)
    (hearlier : ∀ a ∈ earlier, PlainModes a.env a.st ∧ CanonicalModes a.env a.st ∧ ∃ touch mode owner group check,
      a.op = directory path true touch mode owner group check ∧ ∀ m, (inForce a.env a.st { dirMode := mode, owner, group }).dirMode = some m → PlainMode m)
    (lost lost' : Nat → Option Bool) (r r' : OpResult) :
    let op := directory path true touch mode owner group check
    let alone := perform sys lost op env st w
    let last := perform sys lost' op env st (attempted sys earlier w)
    alone.1 = .ok r → r.success = true → last.1 = .ok r' → r'.success = true → Alike alone.2 last.2 := by
  intro op alone last hr hs hr2 hs2
  obtain ⟨attr, t, l, he, hmo, hat, _, _, hres, ⟨n, hn, hdn, hp, how⟩, _⟩ := ((post_ok (directory_post hord hm) hr).1.1 hs hdry).1 rfl
  obtain ⟨hleft, hkept⟩ := bits_kept hord hres hearlier
  obtain ⟨attr2, t2, l2, he2, hmo2, hat2, _, _, hres2, ⟨n2, hn2, hdn2, hp2, how2⟩, _⟩ := ((post_ok (directory_post hleft.ordinary hm) hr2).1.1 hs2 hdry).1 rfl
  obtain rfl := resolved_eq hleft.res hres2
  have : t2 = t := by
    rw [hmo.dir] at hat
    rw [hmo2.dir, hat] at hat2
    cases hat2; rfl
  subst this
  obtain ⟨h1, h2⟩ := owned_same hleft.users hleft.groups hown.1 hown.2 (he.owned how) (he2.owned how2)
  refine alike_of (.of_now hn) hleft.elsewhere (.of_now hn2) hn.at hn2.at ⟨.inl (hdn.kind.trans hdn2.kind.symm), fun _ => ?_, h1, h2⟩
  rw [hp, hp2, dirPerm, dirPerm, hkept]

/-! ### A concrete case -/

/-- An attempt with the settings of the example. -/
def Example.formerly (op : Op OpResult) (lost : Nat → Option Bool := Example.always) : Earlier := ⟨op, Example.env, Example.st, lost⟩

/-- A file was stored with other content, owner and mode, an attempt to make a directory of it failed, and an upload broke off; then it is
stored again. -/
example :
    let op := uploadContent Example.sys.sha512 (.str p!"new") p!"/tmp/x" (some p!"640") none none true
    let earlier := [Example.formerly (uploadContent Example.sys.sha512 (.str p!"old text") p!"/tmp/x" (some p!"4777") (some p!"alice") none true),
      Example.formerly (directory p!"/tmp/x" true false none none none true),
      Example.formerly (uploadContent Example.sys.sha512 (.str p!"other") p!"/tmp/x" none none none true) (Example.breaks 3 true)]
    let last := perform Example.sys Example.always op Example.env Example.st (attempted Example.sys earlier Example.host)
    ((attempted Example.sys earlier Example.host).fs [p!"tmp", p!"x"]).map (·.uid) ≠ none
      ∧ Example.reports (perform Example.sys Example.always op Example.env Example.st Example.host).1 true true = true ∧ Example.reports last.1 true true = true
      ∧ (last.2.fs [p!"tmp", p!"x"]).map (fun n => (n.kind, n.perm, n.uid, n.gid)) = some (.file [110, 101, 119], 0o640, 0, 0) := by
  refine ⟨by decide +kernel, by decide +kernel, by decide +kernel, by decide +kernel⟩

/-- C112 is false for directories that were setgid: `directory(path="/tmp/x", mode="755")` makes a directory of mode 755, but if
`directory(path="/tmp/x", mode="2755")` was there before, it stays setgid, although the operation succeeds. -/
theorem C112_directory_refuted :
    let op := directory p!"/tmp/x" true false (some p!"755") none none true
    let earlier := [Example.formerly (directory p!"/tmp/x" true false (some p!"2755") none none true)]
    let alone := perform Example.sys Example.always op Example.env Example.st Example.host
    let last := perform Example.sys Example.always op Example.env Example.st (attempted Example.sys earlier Example.host)
    Example.reports alone.1 true true = true ∧ Example.reports last.1 true true = true
      ∧ (alone.2.fs [p!"tmp", p!"x"]).map (·.perm) = some 0o755 ∧ (last.2.fs [p!"tmp", p!"x"]).map (·.perm) = some 0o2755 := by
  refine ⟨by decide +kernel, by decide +kernel, by decide +kernel, by decide +kernel⟩

end Verif.Ops
