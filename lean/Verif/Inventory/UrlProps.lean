/-
C65 and C66.
-/
import Verif.Inventory.Url

namespace Verif.Inventory

theorem splitOnce_absent {c : Nat} : ∀ {s : Str}, c ∉ s → Py.splitOnce c s = (s, none)
  | [], _ => rfl
  | x :: s, h => by
    rw [Py.splitOnce, if_neg (by rintro rfl; exact h (by simp)), splitOnce_absent (fun h' => h (by simp [h']))]

theorem splitOnce_present {c : Nat} : ∀ {a b : Str}, c ∉ a → Py.splitOnce c (a ++ c :: b) = (a, some b)
  | [], b, _ => by simp [Py.splitOnce]
  | x :: a, b, h => by
    rw [List.cons_append, Py.splitOnce, if_neg (by rintro rfl; exact h (by simp)), splitOnce_present (fun h' => h (by simp [h']))]

/-- A destination as ssh takes it, `[user@]host[:port]`. -/
structure Destination where
  user : Option Str
  host : Str
  port : Option Str

/-- `[user@]` -/
def userPart : Option Str → Str
  | some u => u ++ p!"@"
  | none => []

/-- `[:port]` -/
def portPart : Option Str → Str
  | some p => p!":" ++ p
  | none => []

/-- The text of a destination. -/
def Destination.text (d : Destination) : Str := userPart d.user ++ d.host ++ portPart d.port

/-- Neither user nor host contain the characters that separate the parts. -/
structure Destination.Plain (d : Destination) : Prop where
  user : ∀ u, d.user = some u → 64 ∉ u
  hostAt : 64 ∉ d.host
  hostColon : 58 ∉ d.host
  port : ∀ p, d.port = some p → 64 ∉ p

theorem hostname_text {d : Destination} (hd : d.Plain) : (Py.splitOnce 58 (afterFirst 64 d.text)).1 = d.host := by
  obtain ⟨user, host, port⟩ := d
  have h2 : ∀ p : Option Str, (Py.splitOnce 58 (host ++ portPart p)).1 = host := by
    intro p
    cases p with
    | none => rw [portPart, List.append_nil, splitOnce_absent hd.hostColon]
    | some p => rw [portPart, List.cons_append, List.nil_append, splitOnce_present hd.hostColon]
  cases user with
  | none =>
    have h1 : 64 ∉ host ++ portPart port := by
      rw [List.mem_append]
      rintro (h | h)
      · exact hd.hostAt h
      · cases port with
        | none => cases h
        | some p =>
          rcases List.mem_append.mp h with h | h
          · simp at h
          · exact hd.port p rfl h
    have : afterFirst 64 (Destination.text ⟨none, host, port⟩) = host ++ portPart port := by
      unfold afterFirst Destination.text
      simp only [userPart, List.nil_append]
      rw [splitOnce_absent h1]
    rw [this, h2]
  | some u =>
    have : afterFirst 64 (Destination.text ⟨some u, host, port⟩) = host ++ portPart port := by
      unfold afterFirst Destination.text
      simp only [userPart, List.append_assoc]
      rw [List.cons_append, List.nil_append, splitOnce_present (hd.user u rfl)]
    rw [this, h2]

/-! ### C65 -/

/-- C65: a url with a schema is left as it is. -/
theorem C65_keeps_schema (schema rest : Str) : qualifyUrl (schema ++ p!":" ++ rest) = schema ++ p!":" ++ rest := by
  unfold qualifyUrl hasChar
  rw [if_pos]
  simp

/-- C65: qualifying twice is the same as qualifying once. -/
theorem C65_idempotent (url : Str) : qualifyUrl (qualifyUrl url) = qualifyUrl url := by
  unfold qualifyUrl hasChar
  by_cases h : url.contains 58 = true
  · simp only [if_pos h]
  · rw [if_neg h, if_pos]
    simp

/-- C65: a host name, with or without a user, becomes an ssh url from which the same host name is extracted. -/
theorem C65_round_trip (user : Option Str) (host : Str) (hu : ∀ u, user = some u → 64 ∉ u ∧ 58 ∉ u) (ha : 64 ∉ host) (hc : 58 ∉ host) :
    let url := Destination.text ⟨user, host, none⟩
    qualifyUrl url = p!"ssh://" ++ url ∧ extractHostname (qualifyUrl url) = .ok host := by
  intro url
  have hno : ¬ 58 ∈ url := by
    show ¬ 58 ∈ Destination.text ⟨user, host, none⟩
    unfold Destination.text
    simp only [portPart, List.append_nil]
    cases user with
    | none => simpa [userPart] using hc
    | some u =>
      intro h
      simp only [userPart, List.mem_append] at h
      rcases h with (h | h) | h
      · exact (hu u rfl).2 h
      · simp at h
      · exact hc h
  have hq : qualifyUrl url = p!"ssh://" ++ url := by
    unfold qualifyUrl hasChar
    rw [if_neg]
    simpa using hno
  refine ⟨hq, ?_⟩
  rw [hq]
  unfold extractHostname
  rw [if_pos (by simp [hasChar])]
  have : registeredConnector (urlSchema (p!"ssh://" ++ url)) = some .ssh := by simp [urlSchema, Py.splitOnce, registeredConnector]
  rw [this]
  show sshHostname _ = _
  unfold sshHostname
  rw [if_pos (by simp [Py.startsWith])]
  have := hostname_text (d := ⟨user, host, none⟩) ⟨fun u h => (hu u h).1, ha, hc, fun p h => (by cases h)⟩
  exact congrArg Except.ok this

example : extractHostname (qualifyUrl p!"root@web.example.org") = .ok p!"web.example.org" := rfl

/-- C65: the host of a url with the schema `local` is called what follows the colon, and `localhost` if that is nothing. -/
theorem C65_local (name : Str) : extractHostname (p!"local:" ++ name) = .ok (if name = [] then p!"localhost" else name) := by
  unfold extractHostname
  rw [if_pos (by simp [hasChar])]
  have : registeredConnector (urlSchema (p!"local:" ++ name)) = some .local := by simp [urlSchema, Py.splitOnce, registeredConnector]
  rw [this]
  show localHostname _ = _
  unfold localHostname
  rw [if_pos (by simp [Py.startsWith])]
  by_cases h : name = [] <;> simp [h]

theorem splitOnce_eq {c : Nat} : ∀ {s a b : Str}, Py.splitOnce c s = (a, some b) → s = a ++ c :: b
  | [], a, b, h => by simp [Py.splitOnce] at h
  | x :: s, a, b, h => by
    rw [Py.splitOnce] at h
    split at h
    · next hx => cases h; rw [hx]; rfl
    · cases hs : Py.splitOnce c s with
      | mk a' b' =>
        rw [hs] at h
        simp only [Prod.mk.injEq] at h
        obtain ⟨rfl, rfl⟩ := h
        rw [splitOnce_eq hs]; rfl

theorem splitOnce_none {c : Nat} : ∀ {s a : Str}, Py.splitOnce c s = (a, none) → c ∉ s
  | [], a, h => by simp
  | x :: s, a, h => by
    rw [Py.splitOnce] at h
    split at h
    · cases h
    · next hx =>
      cases hs : Py.splitOnce c s with
      | mk a' b' =>
        rw [hs] at h
        simp only [Prod.mk.injEq] at h
        obtain ⟨rfl, rfl⟩ := h
        have := splitOnce_none hs
        simp only [List.mem_cons, not_or]
        exact ⟨fun h => hx h.symm, this⟩

/-- C65: any other schema is refused, and so is a url without one. -/
theorem C65_other_schemas (url : Str) (h : ∀ rest, url ≠ p!"ssh:" ++ rest ∧ url ≠ p!"local:" ++ rest) : ∃ m, extractHostname url = .error (.valueError m) := by
  unfold extractHostname
  split
  · next hc =>
    have hu : ∃ rest, url = urlSchema url ++ 58 :: rest := by
      unfold urlSchema
      rcases hs : Py.splitOnce 58 url with ⟨a, _ | rest⟩
      · exact absurd (by simpa [hasChar] using hc) (splitOnce_none hs)
      · exact ⟨rest, splitOnce_eq hs⟩
    obtain ⟨rest, hu⟩ := hu
    have : registeredConnector (urlSchema url) = none := by
      unfold registeredConnector
      rw [if_neg, if_neg]
      · intro hs; rw [hs] at hu; exact (h rest).2 hu
      · intro hs; rw [hs] at hu; exact (h rest).1 hu
    rw [this]
    exact ⟨_, rfl⟩
  · exact ⟨_, rfl⟩

example : extractHostname p!"local:" = .ok p!"localhost" := by rfl

/-- A host name with a port is taken for a url with the name as its schema, and then refused. -/
theorem C65_port_refuted : qualifyUrl p!"web:22" = p!"web:22" ∧ extractHostname (qualifyUrl p!"web:22") = .error (.valueError p!"Invalid url schema") := by
  exact ⟨by decide +kernel, rfl⟩

/-! ### C66 -/

/-- C66: for a url with or without `//`, the destination passed to ssh is the declared one, after all options. -/
theorem C66_destination (dispatcher dest : Str) (host : SshHost) :
    sshCommand dispatcher (some (p!"ssh://" ++ dest)) host = .ok ([p!"ssh"] ++ host.opts ++ [p!"ssh://" ++ dest, dispatcher])
    ∧ (Py.startsWith dest p!"//" = false →
      sshCommand dispatcher (some (p!"ssh:" ++ dest)) host = .ok ([p!"ssh"] ++ host.opts ++ [p!"ssh://" ++ dest, dispatcher])) := by
  constructor
  · simp [sshCommand, sshUrl, Py.startsWith, bind, Except.bind]
  · intro h
    have h1 : Py.startsWith (p!"ssh:" ++ dest) p!"ssh:" = true := by simp [Py.startsWith]
    have h2 : Py.startsWith (p!"ssh:" ++ dest) p!"ssh://" = false := by
      unfold Py.startsWith at h ⊢
      simpa using h
    unfold sshCommand sshUrl
    simp only [h1, h2, if_true, Bool.false_eq_true, if_false]
    rfl

/-- C66: the name of the host is the host in the destination, whether or not there is a user and a port. -/
theorem C66_hostname_partial (d : Destination) (hd : d.Plain) : extractHostname (p!"ssh://" ++ d.text) = .ok d.host := by
  unfold extractHostname
  rw [if_pos (by simp [hasChar])]
  have : registeredConnector (urlSchema (p!"ssh://" ++ d.text)) = some .ssh := by simp [urlSchema, Py.splitOnce, registeredConnector]
  rw [this]
  show sshHostname _ = _
  unfold sshHostname
  rw [if_pos (by simp [Py.startsWith])]
  exact congrArg Except.ok (hostname_text hd)

example : extractHostname p!"ssh://root@web:2222" = .ok p!"web" := C66_hostname_partial ⟨some p!"root", p!"web", some p!"2222"⟩
  ⟨fun u h => by cases h; decide, by decide, by decide, fun p h => by cases h; decide⟩

/-- C66 is false without `//`: two characters are missing in the name of the host, although ssh connects to the right one. -/
theorem C66_hostname_refuted (dispatcher : Str) : extractHostname p!"ssh:webserver" = .ok p!"bserver"
    ∧ sshCommand dispatcher (some p!"ssh:webserver") {} = .ok [p!"ssh", p!"ssh://webserver", dispatcher] := by
  exact ⟨rfl, rfl⟩

/-- C66 is false for an IPv6 address. -/
theorem C66_ipv6_refuted : extractHostname p!"ssh://[::1]:22" = .ok p!"[" := rfl

/-- C66: an inventory entry connects with the ssh connector unless it has another schema. -/
theorem C66_connector (url : Str) (h : 58 ∉ url) : connectorOf (some (qualifyUrl url)) = .ok .ssh := by
  have hq : qualifyUrl url = p!"ssh://" ++ url := by
    unfold qualifyUrl hasChar
    rw [if_neg]
    simpa using h
  rw [hq]
  unfold connectorOf
  simp [hasChar, urlSchema, Py.splitOnce, registeredConnector]

/-- C66: the schema of the url decides about the connector, and urls without schema, or with another one, are refused. -/
theorem C66_schemas (url : Option Str) (c : ConnectorClass) :
    connectorOf url = .ok c ↔ ∃ rest, (c = .ssh ∧ url = some (p!"ssh:" ++ rest)) ∨ (c = .local ∧ url = some (p!"local:" ++ rest)) := by
  cases url with
  | none => simp [connectorOf]
  | some u =>
    have hsplit : ∀ (u pre : Str), 58 ∉ pre → (58 ∈ u ∧ (Py.splitOnce 58 u).1 = pre ↔ ∃ rest, u = pre ++ 58 :: rest) := by
      intro u
      induction u with
      | nil => intro pre _; simp
      | cons x xs ih =>
        intro pre hp
        by_cases hx : x = 58
        · subst hx
          cases pre with
          | nil => simp [Py.splitOnce]
          | cons y ys =>
            simp only [Py.splitOnce, if_true, List.mem_cons, true_or, true_and, List.cons_append]
            constructor
            · intro h; cases h
            · rintro ⟨rest, h⟩
              simp only [List.cons.injEq] at h
              exact absurd (by simp [h.1]) hp
        · cases pre with
          | nil =>
            simp only [Py.splitOnce, if_neg hx, List.nil_append]
            constructor
            · rintro ⟨_, h⟩; cases h
            · rintro ⟨rest, h⟩
              simp only [List.cons.injEq] at h
              exact absurd h.1 hx
          | cons y ys =>
            have := ih ys (fun h => hp (by simp [h]))
            simp only [Py.splitOnce, if_neg hx, List.cons_append, List.cons.injEq, List.mem_cons]
            constructor
            · rintro ⟨h1, h2, h3⟩
              obtain ⟨rest, h⟩ := this.mp ⟨h1.resolve_left (fun h => hx h.symm), h3⟩
              exact ⟨rest, h2, h⟩
            · rintro ⟨rest, h1, h2⟩
              obtain ⟨h3, h4⟩ := this.mpr ⟨rest, h2⟩
              exact ⟨.inr h3, h1, h4⟩
    have h1 := hsplit u p!"ssh" (by decide)
    have h2 := hsplit u p!"local" (by decide)
    have hsep : ∀ a : Str, (∃ rest, u = a ++ 58 :: rest) ↔ ∃ rest, u = (a ++ [58]) ++ rest := by simp
    rw [hsep] at h1 h2
    unfold connectorOf registeredConnector urlSchema
    simp only [hasChar, List.contains_iff_mem, Option.some.injEq]
    rw [exists_or]
    simp only [exists_and_left]
    rw [show p!"ssh:" = p!"ssh" ++ [58] from rfl, show p!"local:" = p!"local" ++ [58] from rfl, ← h1, ← h2]
    by_cases hc : 58 ∈ u
    · simp only [hc, if_true, true_and]
      by_cases hs : (Py.splitOnce 58 u).1 = p!"ssh"
      · rw [hs]
        simp only [if_true, Except.ok.injEq]
        rw [show (p!"ssh" = p!"local") = False from by decide]
        simp [eq_comm]
      · simp only [hs, if_false]
        by_cases hl : (Py.splitOnce 58 u).1 = p!"local"
        · simp only [hl, if_true, Except.ok.injEq]
          simp [eq_comm]
        · simp [hl]
    · simp [hc]

/-- The three kinds of urls. -/
example : connectorOf (some p!"ssh:host") = .ok .ssh ∧ connectorOf (some p!"local:") = .ok .local
    ∧ connectorOf (some p!"http://host") = .error (.runtimeError p!"No connector found for schema") := ⟨rfl, rfl, rfl⟩

end Verif.Inventory
