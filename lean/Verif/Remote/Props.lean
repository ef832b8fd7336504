/-
Property theorems for the dispatcher loop (C07, C09).
-/
import Verif.Remote.LoopLemmas
import Verif.Remote.Example

namespace Verif.Remote

open Wire (Packet Kind encoding)

/-- A dispatcher that has just been started on the given input. -/
def Server.start (w : World) (input : Bytes) : Server := { input, output := [], status := .next, world := w }

theorem serve_answers_aux (sys : Sys) (ps : List Packet) : ∀ (w : World) (rest out : Bytes)
    (_ : ∀ p ∈ ps, p.kind.isRequest = true ∧ p.Sendable ∧ Captured p ∧ p ≠ .exit),
    ∃ qs extra, (serve sys ps.length { input := encodings ps ++ rest, output := out, status := .next, world := w }).output
        = out ++ encodings qs ++ extra
      ∧ AllAnswered (ps.take qs.length) qs ∧ (∀ q ∈ qs, (Wire.writePacket q).2 = none)
      ∧ ((qs.length = ps.length ∧ extra = []
            ∧ (serve sys ps.length { input := encodings ps ++ rest, output := out, status := .next, world := w }).status = .next
            ∧ (serve sys ps.length { input := encodings ps ++ rest, output := out, status := .next, world := w }).input = rest)
        ∨ (qs.length < ps.length
            ∧ ∃ e, (serve sys ps.length { input := encodings ps ++ rest, output := out, status := .next, world := w }).status = .crashed e)) := by
  induction ps with
  | nil =>
    intro w rest out _
    exact ⟨[], [], by simp [serve], trivial, (by simp), .inl ⟨rfl, rfl, rfl, rfl⟩⟩
  | cons p ps ih =>
    intro w rest out h
    obtain ⟨hr, hs, hc, hne⟩ := h p (by simp)
    have hstep := serveOne_request (sys := sys) hr hs (encodings ps ++ rest) out .next w
    have hserve : serve sys (p :: ps).length { input := encodings (p :: ps) ++ rest, output := out, status := .next, world := w }
        = serve sys ps.length (Server.mk (encodings ps ++ rest) (out ++ (dispatch sys p w).1.1) (dispatch sys p w).1.2
            (dispatch sys p w).2) := by
      rw [encodings_cons, List.append_assoc, List.length_cons]
      simp only [serve, if_true, hstep]
    rw [hserve]
    rcases dispatch_cases sys w hne hc with ⟨q, w', hd, ha, hw⟩ | ⟨b, e, w', hd⟩
    · rw [hd]
      simp only
      obtain ⟨qs, extra, h1, h2, h3, h4⟩ := ih w' rest (out ++ encoding q) fun p' hp' => h p' (by simp [hp'])
      refine ⟨q :: qs, extra, ?_, ?_, ?_, ?_⟩
      · rw [h1, encodings_cons]; simp
      · rw [List.length_cons, List.take_succ_cons]
        exact ⟨ha, h2⟩
      · intro x hx
        rcases List.mem_cons.mp hx with rfl | hx
        · exact hw
        · exact h3 x hx
      · rcases h4 with ⟨h5, h6, h7, h8⟩ | ⟨h5, h6⟩
        · exact .inl ⟨by simp [h5], h6, h7, h8⟩
        · exact .inr ⟨by simp only [List.length_cons]; omega, h6⟩
    · rw [hd]
      rw [serve_stopped (by simp)]
      exact ⟨[], b, by simp [encodings], trivial, by simp, .inr ⟨by simp, e, rfl⟩⟩

/-- C07. For every sequence of requests the dispatcher writes one complete answer packet per request, in the order of the
requests, each of a kind that fits its request; either all requests are answered and all input is consumed, or the process
crashed while handling a later one and nothing after that is handled. (Requests: well-formed, encodable, output captured,
no exit request.) -/
theorem C07_one_answer_per_request (sys : Sys) (w : World) (ps : List Packet)
    (h : ∀ p ∈ ps, p.kind.isRequest = true ∧ p.Sendable ∧ Captured p ∧ p ≠ .exit) :
    ∃ (qs : List Packet) (extra : Bytes),
      let s := serve sys ps.length (Server.start w (encodings ps))
      s.output = encodings qs ++ extra
      ∧ AllAnswered (ps.take qs.length) qs
      ∧ (∀ q ∈ qs, (Wire.writePacket q).2 = none)
      ∧ ((qs.length = ps.length ∧ extra = [] ∧ s.status = .next ∧ s.input = [])
        ∨ (qs.length < ps.length ∧ ∃ e, s.status = .crashed e)) := by
  obtain ⟨qs, extra, h1, h2, h3, h4⟩ := serve_answers_aux sys ps w [] [] h
  rw [List.append_nil] at h1 h4
  exact ⟨qs, extra, by simpa [Server.start] using h1, h2, h3, h4⟩

/-- C07. In a sane world every tame request is answered: no crash can occur, so there is exactly one answer for each. -/
theorem C07_all_answered (sys : Sys) (hs : sys.Sane) (ps : List Packet) : ∀ (w : World) (_ : w.Sane) (rest out : Bytes)
    (_ : ∀ p ∈ ps, Packet.Proper p ∧ Tame p ∧ Captured p ∧ p ≠ .exit),
    ∃ (qs : List Packet) (w' : World),
      serve sys ps.length { input := encodings ps ++ rest, output := out, status := .next, world := w }
        = { input := rest, output := out ++ encodings qs, status := .next, world := w' }
      ∧ AllAnswered ps qs ∧ (∀ q ∈ qs, q.Sendable) ∧ w'.Sane := by
  induction ps with
  | nil => intro w hw rest out _; exact ⟨[], w, by simp [serve], trivial, by simp, hw⟩
  | cons p ps ih =>
    intro w hw rest out h
    obtain ⟨hp, ht, hc, hne⟩ := h p (by simp)
    obtain ⟨raw, q, w', hd, ha, hq, hw', hraw⟩ := dispatch_good hs hw hp ht hne
    obtain rfl := hraw hc
    obtain ⟨qs, w'', h1, h2, h3, h4⟩ := ih w' hw' rest (out ++ encoding q) fun p' hp' => h p' (by simp [hp'])
    refine ⟨q :: qs, w'', ?_, ⟨ha, h2⟩, ?_, h4⟩
    · rw [encodings_cons, List.append_assoc, List.length_cons]
      simp only [serve, if_true, serveOne_request hp.1 hp.sendable, hd, List.nil_append]
      rw [h1, encodings_cons, List.append_assoc]
    · intro x hx
      rcases List.mem_cons.mp hx with rfl | hx
      · exact hq
      · exact h3 x hx

/-- C07. An exit request after any such sequence is not answered and stops the dispatcher: whatever follows stays unread
and changes nothing, however long one waits. -/
theorem C07_exit_stops (sys : Sys) (hs : sys.Sane) (w : World) (hw : w.Sane) (ps : List Packet) (rest : Bytes)
    (h : ∀ p ∈ ps, Packet.Proper p ∧ Tame p ∧ Captured p ∧ p ≠ .exit) (n : Nat) (hn : ps.length < n) :
    let before := serve sys ps.length (Server.start w (encodings ps))
    serve sys n (Server.start w (encodings ps ++ encoding .exit ++ rest))
      = { input := rest, output := before.output, status := .closed, world := before.world } := by
  obtain ⟨qs, w', h1, _⟩ := C07_all_answered sys hs ps w hw [] [] h
  obtain ⟨qs2, w2, h2, _⟩ := C07_all_answered sys hs ps w hw (encoding .exit ++ rest) [] h
  have hexit : Packet.exit.Sendable := ⟨trivial, trivial⟩
  -- the two runs do the same up to the exit request
  have same : ∀ (ps : List Packet) (_ : ∀ p ∈ ps, Packet.Proper p) (w : World) (r r' out : Bytes) (st : Step),
      let a := serve sys ps.length { input := encodings ps ++ r, output := out, status := st, world := w }
      let b := serve sys ps.length { input := encodings ps ++ r', output := out, status := st, world := w }
      a.output = b.output ∧ a.world = b.world := by
    intro ps
    induction ps with
    | nil => intro _ w r r' out st; exact ⟨rfl, rfl⟩
    | cons p ps ih =>
      intro hp w r r' out st
      simp only [List.length_cons, serve]
      split
      · rw [encodings_cons, List.append_assoc, List.append_assoc,
          serveOne_request (hp p (by simp)).1 (hp p (by simp)).sendable,
          serveOne_request (hp p (by simp)).1 (hp p (by simp)).sendable]
        exact ih (fun q hq => hp q (by simp [hq])) _ _ _ _ _
      · exact ⟨rfl, rfl⟩
  have heq := same ps (fun p hp => (h p hp).1) w [] (encoding .exit ++ rest) [] .next
  simp only [h1, h2] at heq
  obtain ⟨k, rfl⟩ : ∃ k, n = ps.length + (k + 1) := ⟨n - ps.length - 1, by omega⟩
  rw [List.append_nil] at h1
  simp only [Server.start]
  rw [h1, serve_add, List.append_assoc, h2]
  simp only [serve, if_true]
  rw [serveOne_request rfl hexit]
  rw [serve_stopped (by simp [dispatch, handle])]
  simp only [dispatch, handle, List.append_nil, Server.mk.injEq, true_and]
  exact ⟨heq.1.symm, heq.2.symm⟩

/-- A history that meets the hypotheses: a command, a stat with checksum, an upload and a query. -/
def Example.history : List Packet :=
  [.checkAlive,
   .processRun [p!"ls", p!"-l"] none true (some p!"alice") none (some p!"022") (some p!"/home"),
   .stat p!"/link/motd" true true,
   .upload p!"/etc/new" [1, 2, 3] (some p!"644") none none,
   .queryUser p!"1000" true]

theorem Example.history_ok : ∀ p ∈ Example.history, Packet.Proper p ∧ Tame p ∧ Captured p ∧ p ≠ .exit := by
  intro p hp
  simp only [Example.history, List.mem_cons, List.not_mem_nil, or_false] at hp
  rcases hp with rfl | rfl | rfl | rfl | rfl
  all_goals
    refine ⟨⟨rfl, ?_, ?_⟩, ?_, ?_, by simp⟩
    · simp [Wire.Packet.Fits, Packet.kind, Packet.vals, Wire.schema, Wire.AllFields, Wire.Fits]
    · simp [Packet.kind, Packet.vals, Wire.schema, Wire.AllFields, ModestVal, Modest]
    · first
      | trivial
      | (simp only [Tame, NoNul]; decide)
      | (refine ⟨by unfold NoNul; decide, ?_⟩
         intro m hm i hi
         cases hm
         have : Py.parseInt 8 p!"644" = some 420 := by rfl
         rw [this] at hi
         cases hi
         decide)
      | skip
    · first | rfl | trivial

example : Example.sys.Sane ∧ Example.world.Sane ∧ ∀ p ∈ Example.history, Packet.Proper p ∧ Tame p ∧ Captured p ∧ p ≠ .exit :=
  ⟨Example.sys_sane, Example.world_sane, Example.history_ok⟩

/-! ### C09 -/

/-- The full statement of C09: whatever sendable packet arrives (other than the exit request), the dispatcher is still
running afterwards. -/
def C09_Statement : Prop :=
  ∀ (sys : Sys) (w : World) (p : Packet), sys.Sane → w.Sane → p.Sendable → p ≠ .exit →
    (serveOne sys (Server.start w (encoding p))).status = .next

/-- C09 is false of the code: `stat` on a path with a NUL character ends the dispatcher. -/
theorem C09_refuted : ¬ C09_Statement := by
  intro h
  have hs : (Packet.stat [0] false false).Sendable := by
    simp [Packet.Sendable, Packet.Fits, Packet.Small, Packet.kind, Packet.vals, Wire.schema, Wire.AllFields, Wire.Fits, Wire.Small]
  have := h Example.sys Example.world (.stat [0] false false) Example.sys_sane Example.world_sane hs (by simp)
  have he := serveOne_request (sys := Example.sys) (p := .stat [0] false false) rfl hs [] [] .next Example.world
  rw [List.append_nil] at he
  rw [Server.start, he] at this
  cases this

/-- C09, who is affected, 1: on every host, a NUL character in the path of a stat or download request, in the name of a
resolve or query request or in a command crashes the dispatcher (unless another field is rejected first). -/
theorem C09_nul_crashes_refuted (sys : Sys) (w : World) (s : Str) (h : ¬ NoNul s) (b c : Bool) :
    (dispatch sys (.stat s b c) w).1 = ([], .crashed nulError)
    ∧ (dispatch sys (.download s) w).1 = ([], .crashed nulError)
    ∧ (dispatch sys (.resolveUser (some s)) w).1 = ([], .crashed nulError)
    ∧ (dispatch sys (.resolveGroup (some s)) w).1 = ([], .crashed nulError)
    ∧ (dispatch sys (.queryUser s b) w).1 = ([], .crashed nulError)
    ∧ (dispatch sys (.queryGroup s) w).1 = ([], .crashed nulError)
    ∧ (dispatch sys (.upload s [] none none none) w).1 = ([], .crashed nulError)
    ∧ (dispatch sys (.processRun [s] none true none none none none) w).1 = ([], .crashed nulError) := by
  have h := hasNul_iff.mpr h
  refine ⟨?_, ?_, ?_, ?_, ?_, ?_, ?_, ?_⟩
  · simp [dispatch, handle, handleStat, osStat, guardCall, h, nulError, isENOENT]
  · simp [dispatch, handle, handleDownload, osRead, guardCall, h, nulError, isENOENT]
  · simp [dispatch, handle, handleResolveUser, getpwnam, h, nulError]
  · simp [dispatch, handle, handleResolveGroup, getgrnam, h, nulError]
  · simp [dispatch, handle, handleQueryUser, getpwnam, h, nulError]
  · simp [dispatch, handle, handleQueryGroup, getgrnam, h, nulError]
  · simp [dispatch, handle, handleUpload, doUpload, optional, osWrite, guardCall, h, nulError]
  · simp [dispatch, handle, handleRun, optional, h, nulError]

example : ¬ NoNul [97, 0, 98] := by unfold NoNul; decide

/-- C09, who is affected, 2: an empty command crashes the dispatcher, and so does any response packet sent to it. -/
theorem C09_malformed_crashes_refuted (sys : Sys) (w : World) (stdin : Option Bytes) (capture : Bool) (q : Packet)
    (hq : q.kind.isRequest = false) :
    (dispatch sys (.processRun [] stdin capture none none none none) w).1 = ([], .crashed .indexError)
    ∧ (dispatch sys q w).1 = ([], .crashed .typeError) := by
  constructor
  · simp [dispatch, handle, handleRun, optional]
  · cases q <;> first | rfl | cases hq

example : Packet.ack.kind.isRequest = false := rfl

/-- C09, the part that holds: in a sane world no history of proper requests that avoid NUL characters, empty commands
and modes beyond the range of a C int takes the dispatcher down, and the world stays sane. (Unlike C07 this includes
commands that write into the protocol stream.) -/
theorem C09_survives_partial (sys : Sys) (hs : sys.Sane) (ps : List Packet) : ∀ (w : World) (_ : w.Sane) (rest out : Bytes)
    (_ : ∀ p ∈ ps, Packet.Proper p ∧ Tame p ∧ p ≠ .exit),
    let s := serve sys ps.length { input := encodings ps ++ rest, output := out, status := .next, world := w }
    s.status = .next ∧ s.input = rest ∧ s.world.Sane := by
  induction ps with
  | nil => intro w hw rest out _; exact ⟨rfl, rfl, hw⟩
  | cons p ps ih =>
    intro w hw rest out h
    obtain ⟨hp, ht, hne⟩ := h p (by simp)
    obtain ⟨raw, q, w', hd, ha, hq, hw', hraw⟩ := dispatch_good hs hw hp ht hne
    have := ih w' hw' rest (out ++ (raw ++ encoding q)) fun p' hp' => h p' (by simp [hp'])
    rw [encodings_cons, List.append_assoc, List.length_cons]
    simp only [serve, if_true, serveOne_request hp.1 hp.sendable, hd]
    exact this

example : ∀ p ∈ Example.history, Packet.Proper p ∧ Tame p ∧ p ≠ .exit :=
  fun p hp => ⟨(Example.history_ok p hp).1, (Example.history_ok p hp).2.1, (Example.history_ok p hp).2.2.2⟩

end Verif.Remote
