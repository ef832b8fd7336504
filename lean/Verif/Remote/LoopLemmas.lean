/-
Helper lemmas about the dispatcher loop.
-/
import Verif.Remote.Lemmas

namespace Verif.Remote

open Wire (Packet Kind encoding)

theorem receive_request {p : Packet} (hr : p.kind.isRequest = true) (hs : p.Sendable) (r : Bytes) :
    Wire.receivePacket none (encoding p ++ r) = (.ok p, r) := by
  have := (Wire.writePacket_ok hs).2 r
  unfold Wire.receivePacket
  rw [this]
  cases p <;> first | rfl | cases hr

theorem handleRun_answers {sys : Sys} {w w' : World} {command : List Str} {stdin : Option Bytes} {capture : Bool}
    {user group umask cwd : Option Str} {raw : Bytes} {q : Packet}
    (h : handleRun sys command stdin capture user group umask cwd w = (.answer raw q, w')) :
    Answers (.processRun command stdin capture user group umask cwd) q ∧ (capture = true → raw = []) := by
  unfold handleRun invalid at h
  split at h
  · cases h; exact ⟨.inr (.inr rfl), fun _ => rfl⟩
  · split at h
    · cases h; exact ⟨.inr (.inr rfl), fun _ => rfl⟩
    · split at h
      · cases h; exact ⟨.inr (.inr rfl), fun _ => rfl⟩
      · split at h
        · cases h; exact ⟨.inr (.inr rfl), fun _ => rfl⟩
        · split at h
          · cases h
          · split at h
            · cases h
            · simp only at h
              split at h
              · cases h; exact ⟨.inl (by simp [expected, Packet.kind]), fun _ => rfl⟩
              · cases h
              · split at h
                · cases h
                · split at h
                  · cases h; exact ⟨.inl (by simp [expected, Packet.kind]), fun _ => rfl⟩
                  · rename_i hc
                    cases h
                    exact ⟨.inl (by simp [expected, Packet.kind]), fun h => absurd h hc⟩

theorem handle_answers {sys : Sys} {w w' : World} {p : Packet} {raw : Bytes} {q : Packet}
    (h : handle sys p w = (.answer raw q, w')) :
    Answers p q ∧ (Captured p → raw = []) := by
  have fin : ∀ {p : Packet} {raw : Bytes} {q : Packet} {w w' : World} {q' : Packet} ,
      (Reply.answer [] q', w) = (Reply.answer raw q, w') → Answers p q' → Answers p q ∧ (Captured p → raw = []) := by
    intro p raw q w w' q' h ha
    cases h
    exact ⟨ha, fun _ => rfl⟩
  cases p with
  | checkAlive => exact fin h (.inl (by simp [expected, Packet.kind]))
  | exit => cases h
  | processRun command stdin capture user group umask cwd =>
    have := handleRun_answers h
    exact ⟨this.1, this.2⟩
  | stat path fo sha =>
    simp only [handle, handleStat] at h
    repeat' split at h
    all_goals first
      | (cases h; done)
      | exact fin h (.inr (.inr rfl))
      | exact fin h (.inl (by simp [expected, Packet.kind]))
  | resolveUser user =>
    simp only [handle, handleResolveUser] at h
    repeat' split at h
    all_goals first
      | (cases h; done)
      | exact fin h (.inr (.inr rfl))
      | exact fin h (.inl (by simp [expected, Packet.kind]))
  | resolveGroup group =>
    simp only [handle, handleResolveGroup] at h
    repeat' split at h
    all_goals first
      | (cases h; done)
      | exact fin h (.inr (.inr rfl))
      | exact fin h (.inl (by simp [expected, Packet.kind]))
  | upload file content mode owner group =>
    simp only [handle, handleUpload, doUpload, invalid] at h
    repeat' split at h
    all_goals first
      | (cases h; done)
      | exact fin h (.inr (.inr rfl))
      | exact fin h (.inl (by simp [expected, Packet.kind]))
  | download file =>
    simp only [handle, handleDownload] at h
    repeat' split at h
    all_goals first
      | (cases h; done)
      | exact fin h (.inr (.inr rfl))
      | exact fin h (.inl (by simp [expected, Packet.kind]))
  | queryUser user hash =>
    simp only [handle, handleQueryUser, userEntry] at h
    repeat' split at h
    all_goals first
      | (cases h; done)
      | exact fin h (.inr (.inr rfl))
      | exact fin h (.inl (by simp [expected, Packet.kind]))
  | queryGroup group =>
    simp only [handle, handleQueryGroup] at h
    repeat' split at h
    all_goals first
      | (cases h; done)
      | exact fin h (.inr (.inr rfl))
      | exact fin h (.inl (by simp [expected, Packet.kind]))
  | getenv key => exact fin h (.inl (by simp [expected, Packet.kind]))
  | _ => cases h

theorem handle_close {sys : Sys} {w w' : World} {p : Packet} (h : handle sys p w = (.close, w')) : p = .exit := by
  cases p with
  | exit => rfl
  | checkAlive => cases h
  | processRun command stdin capture user group umask cwd =>
    simp only [handle, handleRun, invalid] at h
    repeat' split at h
    all_goals cases h
  | stat path fo sha =>
    simp only [handle, handleStat] at h
    repeat' split at h
    all_goals cases h
  | resolveUser user =>
    simp only [handle, handleResolveUser] at h
    repeat' split at h
    all_goals cases h
  | resolveGroup group =>
    simp only [handle, handleResolveGroup] at h
    repeat' split at h
    all_goals cases h
  | upload file content mode owner group =>
    simp only [handle, handleUpload, doUpload, invalid] at h
    repeat' split at h
    all_goals cases h
  | download file =>
    simp only [handle, handleDownload] at h
    repeat' split at h
    all_goals cases h
  | queryUser user hash =>
    simp only [handle, handleQueryUser, userEntry] at h
    repeat' split at h
    all_goals cases h
  | queryGroup group =>
    simp only [handle, handleQueryGroup] at h
    repeat' split at h
    all_goals cases h
  | _ => cases h

/-- What handling one request writes: exactly one answer, or the process crashes. -/
theorem dispatch_cases (sys : Sys) (w : World) {p : Packet} (hne : p ≠ .exit) (hc : Captured p) :
    (∃ q w', dispatch sys p w = ((encoding q, .next), w') ∧ Answers p q ∧ (Wire.writePacket q).2 = none)
    ∨ (∃ b e w', dispatch sys p w = ((b, .crashed e), w')) := by
  have resp : ∀ (raw : Bytes) (q : Packet) (w' : World), Answers p q → raw = [] →
      (∃ q' w'', (respond raw q, w') = ((encoding q', Step.next), w'') ∧ Answers p q' ∧ (Wire.writePacket q').2 = none)
      ∨ (∃ b e w'', (respond raw q, w') = ((b, Step.crashed e), w'')) := by
    intro raw q w' ha hraw
    subst hraw
    unfold respond
    cases hw : Wire.writePacket q with
    | mk b o =>
      cases o with
      | none => exact .inl ⟨q, w', by simp [encoding, hw], ha, by rw [hw]⟩
      | some e => exact .inr ⟨_, _, _, rfl⟩
  unfold dispatch
  cases hh : handle sys p w with
  | mk r w' =>
    cases r with
    | answer raw q =>
      have := handle_answers hh
      exact resp raw q w' this.1 (this.2 hc)
    | close => exact absurd (handle_close hh) hne
    | raise e =>
      cases e with
      | osError n s m =>
        cases n with
        | none => exact .inr ⟨_, _, _, rfl⟩
        | some n => exact resp [] _ w' (.inr (.inl rfl)) rfl
      | _ => exact .inr ⟨_, _, _, rfl⟩

/-- In a sane world a proper and tame request is answered. -/
theorem dispatch_good {sys : Sys} (hs : sys.Sane) {w : World} (hw : w.Sane) {p : Packet} (hp : Packet.Proper p) (ht : Tame p)
    (hne : p ≠ .exit) :
    ∃ raw q w', dispatch sys p w = ((raw ++ encoding q, .next), w') ∧ Answers p q ∧ q.Sendable ∧ w'.Sane
      ∧ (Captured p → raw = []) := by
  have hg := handle_good hs hw hp
  unfold dispatch
  cases hh : handle sys p w with
  | mk r w' =>
    rw [hh] at hg
    cases r with
    | answer raw q =>
      refine ⟨raw, q, w', ?_, hg.1.2, hg.1.1, hg.2, (handle_answers hh).2⟩
      simp only [respond, (Wire.writePacket_ok hg.1.1).1]
    | close => exact absurd hg.1 hne
    | raise e =>
      obtain ⟨n, s, m, rfl, hsend⟩ := hg.1 ht
      refine ⟨[], _, w', ?_, .inr (.inl rfl), hsend, hg.2, fun _ => rfl⟩
      simp only [respond, (Wire.writePacket_ok hsend).1]

theorem Packet.Proper.sendable {p : Packet} (h : Packet.Proper p) : p.Sendable := by
  refine ⟨h.2.1, ?_⟩
  have key : ∀ (t : Wire.Ty) (v : Wire.Val t), ModestVal t v → Wire.Small t v := by
    intro t
    induction t with
    | bytes => intro v h; show v.length < _; have : v.length < 2 ^ 50 := h; omega
    | str => intro v h; show v.length < _; have : v.length < 2 ^ 50 := h; omega
    | opt t ih => intro v h x hx; exact ih x (h x hx)
    | list t ih =>
      intro v h
      refine ⟨?_, fun x hx => ih x (h.2 x hx)⟩
      have : v.length < 2 ^ 50 := h.1
      omega
    | _ => intro v _; trivial
  have : ∀ (fs : List (Str × Wire.Ty)) (vs : Wire.Vals fs), Wire.AllFields ModestVal fs vs → Wire.AllFields Wire.Small fs vs := by
    intro fs
    induction fs with
    | nil => intro _ _; trivial
    | cons f fs ih => intro vs h; exact ⟨key _ _ h.1, ih _ h.2⟩
  exact this _ _ h.2.2

theorem serveOne_request {sys : Sys} {p : Packet} (hr : p.kind.isRequest = true) (hs : p.Sendable) (rest out : Bytes)
    (st : Step) (w : World) :
    serveOne sys { input := encoding p ++ rest, output := out, status := st, world := w } =
      { input := rest, output := out ++ (dispatch sys p w).1.1, status := (dispatch sys p w).1.2, world := (dispatch sys p w).2 } := by
  simp only [serveOne, receive_request hr hs]

theorem serve_stopped {sys : Sys} {s : Server} (h : s.status ≠ .next) (n : Nat) : serve sys n s = s := by
  cases n with
  | zero => rfl
  | succ n => simp only [serve, if_neg h]

theorem serve_add (sys : Sys) (m n : Nat) (s : Server) : serve sys (m + n) s = serve sys n (serve sys m s) := by
  induction m generalizing s with
  | zero => rw [Nat.zero_add]; rfl
  | succ m ih =>
    rw [Nat.succ_add]
    simp only [serve]
    split
    · exact ih _
    · rename_i h; rw [serve_stopped h]

/-- The bytes of several packets. -/
abbrev encodings (ps : List Packet) : Bytes := (ps.map encoding).flatten

theorem encodings_cons (p : Packet) (ps : List Packet) : encodings (p :: ps) = encoding p ++ encodings ps := rfl

end Verif.Remote
