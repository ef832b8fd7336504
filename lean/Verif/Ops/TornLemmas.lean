/-
The content of a file while it is written.
-/
import Verif.Ops.ExposeLemmas
import Verif.Ops.LineLemmas

namespace Verif.Ops

open Script Remote
open Client (Prog direct)

/-- At this place there is a regular file with such content. -/
def ContentAt (C : Bytes → Prop) (l : Loc) (w : World) : Prop := ∃ n c, w.fs l = some n ∧ n.kind = .file c ∧ C c

section
variable {sys : Sys} {lost : Nat → Option Bool} {env : Env} {st : St} {w w' : World}
variable {tools : Tools} {path : Str} {l : Loc} {n : Node} {old content : Bytes} {C : Bytes → Prop}

theorem upload_content_at (hC : ∀ k, C (content.take k)) (ha : isAbs path = true) (hres : ∀ cwd, resolve w.fs cwd path false = .ok l)
    (hc : ContentAt C l w) {r : Except Exn Unit}
    (h : (Client.Connector.upload path content none none none).run (direct sys) w = (r, w')) : ContentAt C l w' := by
  have hworld : w' = (handleUpload sys path content none none none w).2 := by
    have := congrArg Prod.snd h
    simp only [Client.Connector.upload, Prog.run] at this
    rw [← this, Client.direct_world]
    rfl
  obtain ⟨n, c, hl, hk, hcc⟩ := hc
  have hn : Now path l w (some n) w := by have := Now.init ha (hres w.cwd); rwa [hl] at this
  have hg : ∀ m, some n = some m → Guarded (fun _ => True) (fun _ => True) C m := by
    rintro m ⟨⟩
    exact ⟨⟨c, hk, hcc⟩, fun _ _ => trivial, trivial⟩
  have hleft : GuardLeft (fun _ => True) (fun _ => True) C path w l w' := by
    rw [hworld]
    exact doUpload_guarded (u := none) (g := none) (mo := none) hC hn hg (fun h => by cases h) (fun _ h => by cases h) (fun _ => trivial) rfl
  obtain ⟨o, hn', hg'⟩ := hleft
  cases o with
  | none =>
    exfalso
    have h1 := osWrite_guarded (sys := sys) hC hn hg (fun h => by cases h) (r := (osWrite sys w path content).1) (w1 := (osWrite sys w path content).2) rfl
    have h2 : w' = (osWrite sys w path content).2 := by
      rw [hworld]
      show (doUpload sys path content none none none w).2 = _
      unfold doUpload
      split <;> rename_i h3
      · rw [h3]
      · rw [h3]; rfl
    rw [← h2] at h1
    have h3 := hn'.at
    rcases h1 with ⟨h1, _⟩ | ⟨m, _, h1⟩
    · rw [h1, hl] at h3; cases h3
    · rw [h1.at] at h3; cases h3
  | some m =>
    obtain ⟨c', hk', hc'⟩ := (hg' m rfl).file
    exact ⟨m, c', hn'.at, hk', hc'⟩

/-- The content of the file while `line` runs. -/
theorem line_torn {line : Str} {present : Bool} {regex : Option Regex} {ws : Bool} {backup : Backup} {check : Bool}
    (hord : Ordinary sys tools w) (hm : PlainModes env st) (hfree : BackupFree w path backup)
    (hlk : lookup w.fs w.cwd path false = .ok (l, n)) (hk : n.kind = .file old) (hold : C old)
    (hC : linePresent line regex ws (Py.decodeEscape old) ≠ present → ∀ new k, lineContent line present regex ws old = some new → C (new.take k)) :
    Post sys lost (Ops.line path line present regex ws backup check) env st w (fun _ _ w' => ContentAt C l w') (ContentAt C l) := by
  obtain ⟨hr, hl⟩ := lookup_ok hlk
  have hbase : ContentAt C l w := ⟨n, old, hl, hk, hold⟩
  refine Post.mono (E := ContentAt C l) (Q := fun r _ w' => (ContentAt C l w' ∧ ContentAt C l w') ∧ (check = true → r.success = true)) ?_
    (fun _ _ _ h => h.1.1) (fun _ h => h)
  refine managed (Q := fun _ w' => ContentAt C l w') hord.sane hm hbase ?_
  intro attr st' ha h1 h2 h3 he hmo
  have hres : ∀ cwd, resolve w.fs cwd path false = .ok l := fun cwd => (resolve_abs ha cwd w.cwd false).trans hr
  unfold lineBody
  refine Post.bind (Post.finalState h1 h3 ?_)
  refine Post.bind (Post.stat ?_ hbase)
  intro s hstat
  cases s with
  | none =>
    have := stat_none hord.stat hstat
    rw [hlk] at this
    cases this
  | some s =>
    obtain ⟨l', n', hlk', rfl⟩ := stat_some hord.sane hstat
    rw [hlk] at hlk'
    cases hlk'
    simp only
    rw [if_neg (by simp [Client.described, hk, Client.typeName])]
    refine Post.bind (Post.download ?_ hbase)
    intro c hc
    have hfo : lookup w.fs w.cwd path true = .ok (l, n) := lookup_follow (fun t ht => by rw [hk] at ht; cases ht) hlk
    obtain rfl := download_exact hfo hk hc
    refine (lineSettle_post (path := path) (Q := fun _ w' => ContentAt C l w' ∧ ContentAt C l w') ?_ ?_ ?_ hbase ?_ ?_ ?_)
    · exact h1
    · exact h2
    · rfl
    · exact fun _ _ _ _ _ => ⟨hbase, hbase⟩
    · exact fun _ _ _ _ _ => ⟨hbase, hbase⟩
    intro hd hp new hnew st2 _
    have hp : linePresent line regex ws (Py.decodeEscape c) ≠ present := hp
    unfold lineActions
    have kept : ∀ {w1}, BackupLeft path backup l w w1 → ContentAt C l w1 := fun h => by
      obtain ⟨h1, _⟩ := h.keeps hres
      exact ⟨n, c, h1.trans hl, hk, hold⟩
    refine Post.bind ((lineBackup_step hord.sane hord.exec ha hfree hres hl hk).mono ?_ (fun _ h => kept h))
    rintro _ st3 w1 ⟨rfl, hb⟩
    have hup := fun {r w'} => upload_content_at (sys := sys) (r := r) (w' := w') (fun k => hC hp new k hnew) ha (hb.left.keeps hres).2 (kept hb.left)
    refine Post.call (single_upload ..) ?_ ?_ (kept hb.left)
    · intro _ w' h
      exact ⟨⟨rfl, fun _ _ _ => ⟨hup h, hup h⟩⟩, hup h⟩
    · intro e w' h
      exact hup h

end
end Verif.Ops
