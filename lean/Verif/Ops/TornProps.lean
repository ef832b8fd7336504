/-
C110: What an interrupted write leaves behind.

As for C109, what is at the path at any moment during an operation is what is there after a run that is cut off at this moment; `sys`, which
says how much of the data is written if writing fails, and `lost` are arbitrary.
-/
import Verif.Ops.TornLemmas
import Verif.Ops.LineProps
import Verif.Ops.ExposeProps

namespace Verif.Ops

open Script Remote

/-- C110. However storing content ends, at the destination there is what was there before, or a regular file with a beginning of the content. -/
theorem C110_store (sys : Sys) (tools : Tools) (lost : Nat → Option Bool) (env : Env) (st : St) (w : World) (hord : Ordinary sys tools w)
    (hm : PlainModes env st) (op : Op OpResult) (path : Str) (source : Except Exn Bytes) (mode owner group : Option Str) (check : Bool)
    (hop : Stores sys.sha512 mode owner group check op path source) (l : Loc) (hl : Denotes w path l) :
    let w' := (perform sys lost op env st w).2
    (w'.fs l).map (·.kind) = (w.fs l).map (·.kind)
      ∨ ∃ content k, source = .ok content ∧ (w'.fs l).map (·.kind) = some (.file (content.take k)) := by
  intro w'
  have h := post_left (P := GuardedAt (fun _ => True) (fun _ => True)
      (fun c => (w.fs l).map (·.kind) = some (.file c) ∨ ∃ content k, source = .ok content ∧ c = content.take k) path w)
    (store_guarded (lost := lost) hop (fun bytes k hb => .inr ⟨bytes, k, hb, rfl⟩) hord hm (fun _ _ => trivial) (fun _ _ _ _ _ _ => trivial)
      (fun _ _ _ _ => trivial) (fun l' n c h1 h2 h3 => ?_) (fun _ _ _ => ⟨trivial, trivial, trivial⟩))
  · have hrest : StoreRest source path w w' := post_world (store_post (lost := lost) hop hord hm) (fun _ _ _ h => h.1.2)
    have same : Same w w' → (w'.fs l).map (·.kind) = (w.fs l).map (·.kind) := fun hs => by rw [same_fs hs]
    rcases hrest with hs | ⟨bytes, hb, hs | ⟨l', hr, _, o, hn, hf, h0⟩⟩
    · exact .inl (same hs)
    · exact .inl (same hs)
    · cases hr.symm.trans hl
      have hat : w'.fs l = o := hn.at
      cases o with
      | none => rw [hat, h0 rfl]; exact .inl rfl
      | some n =>
        obtain ⟨⟨c, hk⟩, _⟩ := hf n rfl
        obtain ⟨c', hk', hc⟩ := (h l n c hl hat hk).file
        rw [hat]
        rcases hc with hc | ⟨content, k, h1, h2⟩
        · rw [hc]; exact .inl (by simp [hk'])
        · exact .inr ⟨content, k, h1, by simp [hk', h2]⟩
  · cases h1.symm.trans hl
    exact ⟨⟨c, h3, .inl (by rw [h2]; simp [h3])⟩, fun _ _ => trivial, trivial⟩

/-- C110. However adding a line to a file with newline characters as line breaks ends, the file is still there and has its old content, or a beginning of the new
one, i.e. of the old content, a newline if the last one is missing, the line, and a newline. -/
theorem C110_line_added (sys : Sys) (tools : Tools) (lost : Nat → Option Bool) (env : Env) (st : St) (w : World) (hord : Ordinary sys tools w)
    (hm : PlainModes env st) (path line : Str) (ws : Bool) (backup : Backup) (check : Bool) (hline : ProperLine line)
    (hfree : BackupFree w path backup) (l : Loc) (n : Node) (old : Bytes) (hlk : lookup w.fs w.cwd path false = .ok (l, n)) (hk : n.kind = .file old)
    (hunix : UnixFile old) :
    ∃ n' c, (perform sys lost (Ops.line path line true none ws backup check) env st w).2.fs l = some n' ∧ n'.kind = .file c
      ∧ (c = old ∨ ¬ HasLine ws line old ∧ ∃ bytes k, Py.encodeUtf8 line = some bytes
          ∧ c = (((if old = [] ∨ old.getLast? = some 10 then old else old ++ [10]) ++ bytes ++ [10]).take k)) := by
  obtain ⟨bytes, hb⟩ := encodable_text hline.text
  refine post_left (P := ContentAt (fun c => c = old ∨ ¬ HasLine ws line old ∧ ∃ bytes k, Py.encodeUtf8 line = some bytes
          ∧ c = (((if old = [] ∨ old.getLast? = some 10 then old else old ++ [10]) ++ bytes ++ [10]).take k)) l)
    (line_torn (lost := lost) hord hm hfree hlk hk (.inl rfl) ?_)
  intro hp new k hnew
  refine .inr ⟨fun h => hp (linePresent_iff.mpr h), bytes, k, hb, ?_⟩
  rw [added_exactly hb hunix] at hnew
  cases hnew
  rfl

/-- C110. However removing a line ends, the file is still there and has its old content, or a beginning of the new one, which consists of
the other lines. -/
theorem C110_line_removed (sys : Sys) (tools : Tools) (lost : Nat → Option Bool) (env : Env) (st : St) (w : World) (hord : Ordinary sys tools w)
    (hm : PlainModes env st) (path line : Str) (ws : Bool) (backup : Backup) (check : Bool) (hstrip : ws = true → Py.strip line = line)
    (hfree : BackupFree w path backup) (l : Loc) (n : Node) (old : Bytes) (hlk : lookup w.fs w.cwd path false = .ok (l, n)) (hk : n.kind = .file old) :
    ∃ n' c, (perform sys lost (Ops.line path line false none ws backup check) env st w).2.fs l = some n' ∧ n'.kind = .file c
      ∧ (c = old ∨ HasLine ws line old ∧ ∃ new k, c = new.take k
          ∧ ∀ others, others = (textLines old).filter (fun x => ¬ SameLine ws x line) → Py.decodeEscape new = unixText (if others = [] then [[]] else others)) := by
  refine post_left (P := ContentAt (fun c => c = old ∨ HasLine ws line old ∧ ∃ new k, c = new.take k
          ∧ ∀ others, others = (textLines old).filter (fun x => ¬ SameLine ws x line) → Py.decodeEscape new = unixText (if others = [] then [[]] else others)) l)
    (line_torn (lost := lost) hord hm hfree hlk hk (.inl rfl) ?_)
  intro hp new k hnew
  have hp : linePresent line none ws (Py.decodeEscape old) = true := by simpa using hp
  exact .inr ⟨linePresent_iff.mp hp, new, k, rfl, removed_exactly hstrip hnew⟩

namespace Example

/-- The disk is full after three bytes. -/
def full : Sys :=
  { sys with
    fault := fun _ c => match c with | .write _ => some ⟨28, p!"No space left on device", p!"No space left on device"⟩ | _ => none
    written := fun _ _ => 3 }

theorem full_ordinary (w : World) (hs : w.Sane) (ha : PlainAccounts w) : Ordinary full tools w :=
  ⟨rfl, (fun _ _ _ _ h => nomatch h), hs, ha⟩

end Example

/-- That the file always has either its old content or the complete new one is false: files are overwritten in place. Here the disk is full after
three bytes. -/
theorem C110_atomic_refuted :
    ((perform Example.full Example.always (Example.secret p!"/etc/motd" p!"600" none) Example.env Example.st Example.host).2.fs [p!"etc", p!"motd"]).map (·.kind)
        = some (.file [115, 101, 99])
      ∧ (Example.host.fs [p!"etc", p!"motd"]).map (·.kind) = some (.file [104, 105, 10])
      ∧ (Content.str p!"secret").encode.toOption = some [115, 101, 99, 114, 101, 116] := by
  refine ⟨by decide +kernel, by decide +kernel, by decide +kernel⟩

/-- So adding a line to a file can lose the other lines, if no backup is wanted: of the file with the lines `hi` and `ho`, to which `there` should be
added, only the first line remains. -/
theorem C110_lines_lost_refuted :
    ((perform Example.full Example.always (Ops.line p!"/etc/motd" p!"there" true none true .no true) Example.env Example.st
        (Example.motd [104, 105, 10, 104, 111, 10])).2.fs [p!"etc", p!"motd"]).map (·.kind) = some (.file [104, 105, 10]) := by
  decide +kernel

/-- The hypotheses of `C110_store` are met by a run that is interrupted. -/
example : Ordinary Example.full Example.tools Example.host ∧ PlainModes Example.env Example.st
    ∧ Stores Example.full.sha512 (some p!"600") (some p!"root") none true (Example.secret p!"/etc/motd" p!"600" none) p!"/etc/motd" (Content.str p!"secret").encode
    ∧ Denotes Example.host p!"/etc/motd" [p!"etc", p!"motd"] :=
  ⟨Example.full_ordinary _ Example.host_sane Example.accounts, Example.plainModes, Example.secret_stores _ _ _, by unfold Denotes; rfl⟩

/-- So are those of `C110_line_added` and `C110_line_removed`. -/
example : Ordinary Example.full Example.tools Example.host ∧ PlainModes Example.env Example.st
    ∧ ProperLine p!"there" ∧ BackupFree Example.host p!"/etc/motd" .no ∧ (Py.strip p!"there" = p!"there")
    ∧ (lookup Example.host.fs Example.host.cwd p!"/etc/motd" false).toOption.map (fun x => (x.1, x.2.kind)) = some ([p!"etc", p!"motd"], .file [104, 105, 10])
    ∧ UnixFile [104, 105, 10] := by
  refine ⟨Example.full_ordinary _ Example.host_sane Example.accounts, Example.plainModes, ⟨?_, by decide +kernel⟩, ?_, by decide +kernel, by decide +kernel, ?_⟩
  · intro c hc
    revert c
    decide +kernel
  · intro dst h
    cases h
  · intro c hc
    revert c
    decide +kernel

end Verif.Ops
