/-
Property theorems about requests through the tunnel (C08, C18).
-/
import Verif.Client.Lemmas
import Verif.Remote.Example
import Verif.Remote.Props

namespace Verif.Client

open Wire (Packet Kind encoding)
open Remote

/-! ### C18 -/

/-- C18, one request: sent through the pipe, decoded, dispatched, encoded and decoded again, a request has the same result
and the same effect as calling its handler, and leaves both pipes empty. -/
theorem C18_request_transparent (sys : Sys) (hs : sys.Sane) (w : World) (hw : w.Sane) (p : Packet)
    (hp : Packet.Proper p) (ht : Tame p) (hc : Captured p) (hne : p ≠ .exit) :
    tunnel sys p (idle w) = ((direct sys p w).1, idle (direct sys p w).2) :=
  (tunnel_good hs hw hp ht hc hne).1

/-- C18. For every program, i.e. every history of requests in which later requests may depend on earlier answers, running it
over the tunnel gives the same result and the same remote state as running it against the handlers directly, and leaves
both pipes empty. -/
theorem C18_tunnel_transparent {α : Type} (sys : Sys) (hs : sys.Sane) (prog : Prog α)
    (hprog : prog.All fun p => Packet.Proper p ∧ Tame p ∧ Captured p ∧ p ≠ .exit) : ∀ (w : World), w.Sane →
    prog.run (tunnel sys) (idle w) = ((prog.run (direct sys) w).1, idle (prog.run (direct sys) w).2) := by
  induction hprog with
  | ret a => intro w _; rfl
  | req p k hp _ ih =>
    intro w hw
    obtain ⟨h1, h2, h3, h4⟩ := hp
    have h := tunnel_good hs hw h1 h2 h3 h4
    simp only [Prog.run, h.1]
    exact ih _ _ h.2

theorem proper_of {p : Packet} (hr : p.kind.isRequest = true) (hf : p.Fits)
    (hm : Wire.AllFields ModestVal (Wire.schema p.kind) p.vals) : Packet.Proper p := ⟨hr, hf, hm⟩

/-- Discharges the conditions on concrete requests. -/
macro "concrete_request" : tactic => `(tactic|
  (refine ⟨⟨rfl, ?_, ?_⟩, ?_, ?_, by simp⟩
   · simp [Wire.Packet.Fits, Packet.kind, Packet.vals, Wire.schema, Wire.AllFields, Wire.Fits]
   · simp [Packet.kind, Packet.vals, Wire.schema, Wire.AllFields, ModestVal, Modest]
   · first
     | trivial
     | (simp only [Tame, NoNul]; decide)
     | (refine ⟨by unfold NoNul; decide, ?_⟩
        intro m hm
        cases hm)
   · first | rfl | trivial))

example : (Connector.stat p!"/etc/motd" true true).All fun p => Packet.Proper p ∧ Tame p ∧ Captured p ∧ p ≠ .exit :=
  .one (by concrete_request)

example : (do
    let _ ← Connector.stat p!"/etc/motd" true true
    match ← Connector.download p!"/etc/motd" with
    | .ok _ => Connector.run [p!"ls", p!"-l"] (user := some p!"alice") (cwd := some p!"/home")
    | .error e => return .error e : Prog (Except Exn Completed)).All
      fun p => Packet.Proper p ∧ Tame p ∧ Captured p ∧ p ≠ .exit := by
  refine .bind (.one (by concrete_request)) fun _ => .bind (.one (by concrete_request)) fun r => ?_
  cases r with
  | ok c => exact .one (by concrete_request)
  | error e => exact .ret _

/-! ### C08 -/

/-- C08. Whatever is requested on a sane host, there are only these outcomes: an answer of the kind that belongs to the
request; `RemoteOSError`; or a `ValueError` that names a field of the request and shows the value that field has. (Requests
that crash the dispatcher, see C09, are the subject of `C08_crash_is_reported`.) -/
theorem C08_outcomes (sys : Sys) (hs : sys.Sane) (w : World) (hw : w.Sane) (p : Packet) (hp : Packet.Proper p) (ht : Tame p)
    (hc : Captured p) (hne : p ≠ .exit) :
    (∃ q, (tunnel sys p (idle w)).1 = .ok q ∧ q.kind ∈ expected p.kind)
    ∨ (∃ n s m, (tunnel sys p (idle w)).1 = .error (.remoteOSError n s m))
    ∨ (∃ f v m, p.getattr f = some v ∧ (tunnel sys p (idle w)).1 = .error (.valueError (Wire.invalidFieldMsg v f m))) := by
  rw [tunnel_step hp.1 hp.sendable]
  have hg := handle_good hs hw hp
  unfold dispatch
  cases hh : handle sys p w with
  | mk r w' =>
    rw [hh] at hg
    cases r with
    | answer raw q =>
      obtain rfl := (handle_answers hh).2 hc
      have := receive_response (p := p) hg.1.1 []
      rw [List.append_nil] at this
      simp only [respond, (Wire.writePacket_ok hg.1.1).1, List.nil_append, this]
      rcases (handle_answers hh).1 with ha | ha | ha
      · refine .inl ⟨q, ?_, ha⟩
        revert ha
        cases p <;> cases q <;> simp [expected, Packet.kind, unpackResponse]
      · cases q <;> cases ha
        exact .inr (.inl ⟨_, _, _, rfl⟩)
      · cases q with
        | invalidField f m =>
          obtain ⟨v, hv⟩ := handle_field hh
          exact .inr (.inr ⟨f, v, m, hv, by simp [unpackResponse, hv]⟩)
        | _ => cases ha
    | close => exact absurd hg.1 hne
    | raise e =>
      obtain ⟨n, s, m, rfl, hsend⟩ := hg.1 ht
      have := receive_response (p := p) hsend []
      rw [List.append_nil] at this
      simp only [respond, (Wire.writePacket_ok hsend).1, List.nil_append, this, unpackResponse]
      exact .inr (.inl ⟨_, _, _, rfl⟩)

example : (∃ p, Packet.Proper p ∧ Tame p ∧ Captured p ∧ p ≠ .exit) ∧ Example.sys.Sane ∧ Example.world.Sane :=
  ⟨⟨.stat p!"/etc/motd" true true, by concrete_request⟩, Example.sys_sane, Example.world_sane⟩

/-- C08. An OSError that the handler of any request raises arrives as `RemoteOSError` with the same number and texts, the
dispatcher goes on, and the effects so far are kept. -/
theorem C08_os_error_is_reported (sys : Sys) (hs : sys.Sane) (w : World) (hw : w.Sane) (p : Packet) (hp : Packet.Proper p)
    (ht : Tame p) (n : Int) (s m : Str) (w' : World) (h : handle sys p w = (.raise (.osError (some n) s m), w')) :
    tunnel sys p (idle w) = (.error (.remoteOSError n s m), idle w') := by
  have hg := handle_good hs hw hp
  rw [h] at hg
  obtain ⟨_, _, _, he, hsend⟩ := hg.1 ht
  cases he
  rw [tunnel_step hp.1 hp.sendable]
  have := receive_response (p := p) hsend []
  rw [List.append_nil] at this
  simp only [dispatch, h, respond, (Wire.writePacket_ok hsend).1, List.nil_append, this, unpackResponse, idle]

/-- C08, at the API: errors of the system calls behind each function are raised by that function as they are. -/
theorem C08_api_os_errors (sys : Sys) (w : World) (e : OSErr) (he : e.errno ≠ ENOENT) (path : Str) (hn : NoNul path) :
    (∀ fo sha, sys.fault w (.stat path fo) = some e →
      (Connector.stat path fo sha).run (direct sys) w = (.error (.remoteOSError e.errno e.strerror e.msg), w))
    ∧ (sys.fault w (.openRead path) = some e →
      (Connector.download path).run (direct sys) w = (.error (.remoteOSError e.errno e.strerror e.msg), w))
    ∧ (∀ content, sys.fault w (.openWrite path) = some e →
      (Connector.upload path content none none none).run (direct sys) w = (.error (.remoteOSError e.errno e.strerror e.msg), w))
    ∧ (∀ content l, sys.fault w (.openWrite path) = none → sys.fault w (.write path) = some e →
      resolve w.fs w.cwd path true = .ok l → w.fs l = none →
      ((Connector.upload path content none none none).run (direct sys) w).1 = .error (.remoteOSError e.errno e.strerror e.msg)) := by
  have hn := noNul_hasNul hn
  have hne : (e.errno == ENOENT) = false := by simpa using he
  refine ⟨?_, ?_, ?_, ?_⟩
  · intro fo sha h
    simp [Connector.stat, Prog.run, direct, handle, handleStat, osStat, guardCall, hn, h, OSErr.exn, isENOENT, hne, Exn.isValueError]
  · intro h
    simp [Connector.download, Prog.run, direct, handle, handleDownload, osRead, guardCall, hn, h, OSErr.exn, isENOENT, hne]
  · intro content h
    simp [Connector.upload, Prog.run, direct, handle, handleUpload, doUpload, Remote.optional, osWrite, guardCall, hn, h, OSErr.exn]
  · intro content l h h2 h3 h4
    simp [Connector.upload, Prog.run, direct, handle, handleUpload, doUpload, Remote.optional, osWrite, guardCall, hn, h, h2, h3, h4, OSErr.exn]

/-- C08, at the API: if the program cannot be executed, `run` raises the error of `execve` as it is. -/
theorem C08_api_exec_error (sys : Sys) (w : World) (e : OSErr) (arg0 : Str) (args : List Str) (input : Option Bytes) (check : Bool)
    (hn : ∀ a ∈ arg0 :: args, NoNul a)
    (h : ∀ p : Proc, p.argv = arg0 :: args → (sys.exec p { w with started := p :: w.started }).1 = .failed e) :
    (Connector.run (arg0 :: args) input true check none none none none).run (direct sys) w
      = (.error (.remoteOSError e.errno e.strerror e.msg), w) := by
  have hany : ((arg0 :: args).any hasNul) = false := by
    rw [List.any_eq_false]
    intro a ha
    rw [noNul_hasNul (hn a ha)]; decide
  rw [run_eq]
  have hp : plan sys (arg0 :: args) input true none none none none w = .ok
      { argv := arg0 :: args, stdin := input, capture := true, uid := w.uid, gid := w.gid, supp := w.supp, umask := 0o077, cwd := w.cwd } := by
    simp only [plan, Remote.optional, Option.any_none, Bool.false_eq_true, if_false, hany, startChild, pickGid, Option.map_none,
      Option.getD_none]
    rfl
  rw [hp]
  simp only
  have h := h { argv := arg0 :: args, stdin := input, capture := true, uid := w.uid, gid := w.gid, supp := w.supp, umask := 0o077, cwd := w.cwd } rfl
  revert h
  cases sys.exec _ _ with
  | mk r w' =>
    intro h
    simp only at h
    subst h
    rfl

example : (Connector.run [p!"missing"]).run (direct Example.sys) Example.world
    = (.error (.remoteOSError 2 p!"No such file or directory" (osErr 2 p!"missing").msg), Example.world) :=
  C08_api_exec_error _ _ (osErr 2 p!"missing") _ _ _ _ (by unfold NoNul; decide)
    (fun p hp => by simp [Example.sys, hp])

/-- C08. If the handler raises anything else, the dispatcher is gone and the caller gets the `IOError` of a lost connection:
the call never hangs and never returns a made-up result. -/
theorem C08_crash_is_reported (sys : Sys) (w w' : World) (p : Packet) (hr : p.kind.isRequest = true) (hp : p.Sendable) (e : Exn)
    (h : handle sys p w = (.raise e, w')) (he : ∀ n s m, e ≠ .osError (some n) s m) :
    (tunnel sys p (idle w)).1 = .error lostConnection ∧ (tunnel sys p (idle w)).2.status = .crashed e := by
  rw [tunnel_step hr hp]
  have hd : dispatch sys p w = (([], .crashed e), w') := by
    unfold dispatch
    rw [h]
    cases e with
    | osError n s m =>
      cases n with
      | none => rfl
      | some n => exact absurd rfl (he n s m)
    | _ => rfl
  rw [hd]
  exact ⟨by rfl, rfl⟩

example : handle Example.sys (.stat [0] true true) Example.world = (.raise nulError, Example.world)
    ∧ (∀ n s m, nulError ≠ .osError (some n) s m) := ⟨rfl, fun _ _ _ h => by cases h⟩

/-- C08. A field that the handler of any request rejects arrives as `ValueError`: the field exists in the request, and the
message consists of its value, its name and the handler's reason. -/
theorem C08_rejected_field_shown (sys : Sys) (hs : sys.Sane) (w : World) (hw : w.Sane) (p : Packet) (hp : Packet.Proper p)
    (ht : Tame p) (hc : Captured p) (hne : p ≠ .exit) (f m : Str) (raw : Bytes) (w' : World)
    (h : handle sys p w = (.answer raw (.invalidField f m), w')) :
    ∃ v, p.getattr f = some v ∧ tunnel sys p (idle w) = (.error (.valueError (Wire.invalidFieldMsg v f m)), idle w') := by
  obtain ⟨v, hv⟩ := handle_field h
  refine ⟨v, hv, ?_⟩
  rw [(tunnel_good hs hw hp ht hc hne).1]
  simp [direct, h, unpackResponse, hv]

example : handle Example.sys (.download p!"/nowhere") Example.world
    = (.answer [] (.invalidField p!"file" (osErr 2 p!"/nowhere").msg), Example.world) := rfl

end Verif.Client
