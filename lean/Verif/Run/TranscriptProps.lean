/-
C114: what is on the screen after a run.
-/
import Verif.Run.TranscriptLemmas

namespace Verif.Run.Transcript

open Py Script

variable {udiff : List Bytes → List Bytes → List Bytes} {repr : Val → Str} {o : Options}

/-- C114, for a script: exactly its lines are added to the screen, each with the indentation of the place where it belongs, and the
indentation is what it was before, however the script ends. -/
theorem C114_script (hud : ∀ a b, ∀ l ∈ (udiff a b).drop 2, l ≠ []) (hdbg : o.debug = false) (code : Code) (h : code.Tame repr) (depth : Nat) :
    (exec udiff repr o code depth).level = depth
    ∧ ∃ lines, Lines udiff repr o depth code lines (exec udiff repr o code depth).failed ∧ Displays (exec udiff repr o code depth).text lines :=
  displays_exec hud hdbg code h depth

theorem displays_init {h : HostRun} (hn : Tame h.name) (hu : Tame h.url) :
    Displays (connectionInit o 0 h.name h.url) [p!"host " ++ h.name ++ p!" via " ++ h.url] := by
  have h1 := hn.1
  have h2 := hn.2
  have h3 := hu.1
  have h4 := hu.2
  refine displays_line (Uncoloured.cast (printIndented_plain (level := 0)
    (m' := [] ++ p!"host" ++ [] ++ p!" " ++ h.name ++ p!" via " ++ [] ++ h.url ++ []) ?_ nl) (by simp [pad])) ?_
  · plain_text
  · one_line

theorem displays_failed {message : Str} (hm : Tame message) : Displays (connectionFailed o 0 message) [p!"ERR", p!" └ " ++ message] := by
  have h1 := hm.1
  have h2 := hm.2
  have ha : Displays (col o p!"1;31" ++ p!"ERR" ++ col o p!"" ++ [10]) [p!"ERR"] := by
    refine displays_line (Uncoloured.cast (b' := [] ++ p!"ERR" ++ [] ++ [10]) ?_ rfl) (by unfold OneLine; decide)
    plain_text
  have hb : Displays (printIndented o 0 (p!" " ++ col o p!"90" ++ p!"└" ++ col o p!"" ++ p!" " ++ (col o p!"31" ++ message ++ col o p!""))) [p!" └ " ++ message] := by
    refine displays_line (Uncoloured.cast (printIndented_plain (level := 0) (m' := p!" " ++ [] ++ p!"└" ++ [] ++ p!" " ++ ([] ++ message ++ [])) ?_ nl) (by simp [pad])) ?_
    · plain_text
    · one_line
  exact ha.append hb

theorem tame_code (n : Int) : Tame (p!"command exited with code " ++ intStr n) := by
  have hc : ∀ c ∈ intStr n, c = 45 ∨ 48 ≤ c ∧ c ≤ 57 := by
    cases n with
    | ofNat n => exact fun c hc => .inr (natStr_chars (by omega) (by omega) n c hc)
    | negSucc n =>
      intro c hc
      rcases List.mem_cons.mp hc with rfl | hc
      · exact .inl rfl
      · exact .inr (natStr_chars (by omega) (by omega) (n + 1) c hc)
  refine ⟨noEsc_append.mpr ⟨by unfold NoEsc; decide, fun h => ?_⟩, oneLine_append.mpr ⟨by unfold OneLine; decide, fun h => ?_, fun h => ?_⟩⟩ <;>
  · have := hc _ h
    omega

theorem displays_hosts (hud : ∀ a b, ∀ l ∈ (udiff a b).drop 2, l ≠ []) (hdbg : o.debug = false) {script : Str} (hsc : Tame script) (last : Str) :
    ∀ (hosts : List HostRun) (_ : ∀ h ∈ hosts, h.Tame repr) (_ : (hosts.map (·.name)).Nodup) (_ : ∀ h, hosts.getLast? = some h → h.name = last),
      (runHosts udiff repr o script last hosts 0).level = 0
      ∧ ∃ lines, HostLines udiff repr o script hosts lines (runHosts udiff repr o script last hosts 0).failed
        ∧ Displays (runHosts udiff repr o script last hosts 0).text lines
  | [], _, _, _ => ⟨rfl, [], .nil, .nil⟩
  | h :: hs, ht, hnd, hlast => by
    have hh := ht h (by simp)
    have hinit := displays_init (o := o) hh.name hh.url
    cases ho : h.opening with
    | failed c m =>
      cases c with
      | none =>
        simp only [runHosts, ho, failureText]
        exact ⟨trivial, _, .refused ho, hinit.append (displays_failed (hh.message _ _ ho))⟩
      | some n =>
        simp only [runHosts, ho, failureText]
        refine ⟨trivial, _, .exited ho, ?_⟩
        have := hinit.append (displays_failed (o := o) (tame_code n))
        simpa using this
    | unidentified =>
      simp only [runHosts, ho]
      exact ⟨trivial, _, .unidentified ho, hinit⟩
    | «open» =>
      obtain ⟨hlev, inner, hl, hd⟩ := displays_exec hud hdbg h.code hh.code 1
      rw [Int.natCast_one] at hlev hl hd
      have hs' := displays_script (o := o) 0 (name := some p!"cmdline") hsc (by rintro n ⟨⟩; exact ⟨by unfold NoEsc; decide, by unfold OneLine; decide⟩)
      have hpad : pad o 0 = [] := by simp [pad]
      rw [hpad] at hs'
      have htext : Displays (connectionInit o 0 h.name h.url ++ (scriptTitle o 0 script (some p!"cmdline") ++ (exec udiff repr o h.code 1).text))
          ((p!"host " ++ h.name ++ p!" via " ++ h.url) :: (p!"script " ++ script ++ p!" (cmdline)") :: inner) := by
        have := hinit.append (hs'.append hd)
        simpa [scriptText] using this
      have hfail : ∀ b : Bool, (exec udiff repr o (if b = true then Code.throw else Code.done) 0) = ⟨[], 0, b⟩ := by
        intro b; cases b <;> rfl
      simp only [runHosts, ho, exec, Int.zero_add, hlev, Int.sub_self, hfail, Out.after, List.append_nil]
      cases hf : (exec udiff repr o h.code 1).failed with
      | true =>
        simp only [Bool.true_or, if_true]
        exact ⟨trivial, _, .failed ho hl (.inl hf), htext⟩
      | false =>
        rw [hf] at hl
        cases hc : h.closes with
        | false =>
          simp only [Bool.not_false, Bool.or_true, if_true]
          exact ⟨trivial, _, .failed ho hl (.inr hc), htext⟩
        | true =>
          simp only [Bool.not_true, Bool.or_false, Bool.false_eq_true, if_false]
          cases hs with
          | nil =>
            have : h.name = last := hlast h rfl
            simp only [runHosts, this, ne_eq, not_true, if_false, List.append_nil]
            rw [this] at htext
            exact ⟨trivial, _, this ▸ .last ho hl hc, htext⟩
          | cons h' hs =>
            have hne : h.name ≠ last := by
              obtain ⟨x, hx⟩ : ∃ x, (h' :: hs).getLast? = some x := ⟨_, List.getLast?_eq_some_getLast (by simp)⟩
              have hxl := hlast x (by rw [List.getLast?_cons_cons]; exact hx)
              rw [← hxl]
              intro he
              rw [List.map_cons, List.nodup_cons] at hnd
              exact hnd.1 (he ▸ List.mem_map_of_mem (List.mem_of_getLast? hx))
            obtain ⟨hlev', rest, hl', hd'⟩ := displays_hosts hud hdbg hsc last (h' :: hs) (fun x hx => ht x (by simp [hx]))
              (by rw [List.map_cons, List.nodup_cons] at hnd; exact hnd.2) (fun x hx => hlast x (by rw [List.getLast?_cons_cons]; exact hx))
            simp only [hne, ne_eq, not_false_eq_true, if_true]
            refine ⟨hlev', _, .next ho hl hc hl', ?_⟩
            have hblank : Displays [10] [[]] := displays_line (l := []) (.clean nl) oneLine_nil
            have := (htext.append hblank).append hd'
            simpa using this

/-- C114, for a run: the screen shows the hosts in the order in which they are dealt with, each with its url and below it the script and
all that it calls, with the summary of every operation, indented by the number of scripts and operations that it is a part of; one empty
line between two hosts; an error if there is no connection; nothing after the host where the run ends; and nothing else. (Standard output
only, without --debug, on lines that are long enough.) -/
theorem C114_run (hud : ∀ a b, ∀ l ∈ (udiff a b).drop 2, l ≠ []) (hdbg : o.debug = false) {script : Str} (hsc : Tame script) (hosts : List HostRun)
    (ht : ∀ h ∈ hosts, h.Tame repr) (hnd : (hosts.map (·.name)).Nodup) :
    ∃ lines, HostLines udiff repr o script hosts lines (run udiff repr o script hosts).failed ∧ Displays (run udiff repr o script hosts).text lines := by
  refine (displays_hosts hud hdbg hsc _ hosts ht hnd fun h hh => ?_).2
  rw [List.getLast?_map, hh]
  rfl

theorem uncoloured_unique {text a b : Str} (ha : Uncoloured text a) (hb : Uncoloured text b) : a = b := by
  induction ha generalizing b with
  | nil => cases hb; rfl
  | @code ps r s hps _ ih =>
    generalize hx : 27 :: 91 :: (ps ++ 109 :: r) = x at hb
    cases hb with
    | nil => cases hx
    | @code ps' r' s' hps' hb =>
      simp only [List.cons.injEq, true_and] at hx
      have key : ∀ {p q u v : Str}, (∀ c ∈ p, c = 59 ∨ 48 ≤ c ∧ c ≤ 57) → (∀ c ∈ q, c = 59 ∨ 48 ≤ c ∧ c ≤ 57) → p ++ 109 :: u = q ++ 109 :: v → u = v := by
        intro p
        induction p with
        | nil =>
          intro q u v _ hq he
          cases q with
          | nil => simpa using he
          | cons c q =>
            have := hq c (by simp)
            simp only [List.nil_append, List.cons_append, List.cons.injEq] at he
            omega
        | cons c p ihp =>
          intro q u v hp hq he
          cases q with
          | nil =>
            have := hp c (by simp)
            simp only [List.nil_append, List.cons_append, List.cons.injEq] at he
            omega
          | cons c' q =>
            simp only [List.cons_append, List.cons.injEq] at he
            exact ihp (fun x hx => hp x (by simp [hx])) (fun x hx => hq x (by simp [hx])) he.2
      exact ih (key hps hps' hx ▸ hb)
    | char c hc =>
      simp only [List.cons.injEq] at hx
      exact absurd hx.1.symm hc
  | @char c r s hc _ ih =>
    generalize hx : c :: r = x at hb
    cases hb with
    | nil => cases hx
    | code => simp only [List.cons.injEq] at hx; exact absurd hx.1 hc
    | char c' hc' hb =>
      simp only [List.cons.injEq] at hx
      obtain ⟨rfl, rfl⟩ := hx
      rw [ih hb]

/-- C114: a text shows these lines and no others. -/
theorem C114_exactly {text : Str} {a b : List Str} (ha : Displays text a) (hb : Displays text b) : a = b := by
  obtain ⟨p, hp, ha⟩ := ha
  obtain ⟨q, hq, hb⟩ := hb
  obtain rfl := uncoloured_unique hp hq
  have := (ha []).symm.trans (hb [])
  simpa [page] using this

theorem cut_unique {brief : Bool} {n : Nat} {s a b : Str} (ha : Cut brief n s a) (hb : Cut brief n s b) : a = b := by
  unfold Cut at ha hb
  split at ha
  · next h => rw [if_pos h] at hb; rw [ha, hb]
  · next h => rw [if_neg h] at hb; rw [ha, hb]

theorem change_unique {brief : Bool} {k : Str} {u v : Val} {a b : Str} (ha : ChangeText brief repr k u v a) (hb : ChangeText brief repr k u v b) : a = b := by
  cases ha with
  | set h1 h2 =>
    cases hb with
    | set h3 h4 => rw [cut_unique h1 h3, cut_unique h2 h4]
    | changed h0 => exact absurd rfl h0
  | changed h0 h1 h2 h3 =>
    cases hb with
    | set => exact absurd rfl h0
    | changed _ h4 h5 h6 => rw [cut_unique h1 h4, cut_unique h2 h5, cut_unique h3 h6]

theorem states_unique {verbose : Nat} {initial f : Script.Dict} {a b : List Str} (ha : StateTexts verbose repr initial f a)
    (hb : StateTexts verbose repr initial f b) : a = b := by
  induction ha generalizing b with
  | nil => cases hb; rfl
  | unset _ ih =>
    cases hb with
    | unset hb => exact ih hb
    | unchanged hv => exact absurd rfl hv
    | still hv => exact absurd rfl hv
    | changed hv => exact absurd rfl hv
  | unchanged hv hu he hverb _ ih =>
    cases hb with
    | unset => exact absurd rfl hv
    | unchanged _ _ _ _ hb => exact ih hb
    | still _ _ _ hn => exact absurd hverb hn
    | changed _ hu' he' => rw [hu] at hu'; cases hu'; rw [he] at he'; cases he'
  | still hv hu he hverb _ ih =>
    cases hb with
    | unset => exact absurd rfl hv
    | unchanged _ _ _ hn => exact absurd hn hverb
    | still _ hu' _ _ hb => rw [hu] at hu'; cases hu'; rw [ih hb]
    | changed _ hu' he' => rw [hu] at hu'; cases hu'; rw [he] at he'; cases he'
  | changed hv hu he hct _ ih =>
    cases hb with
    | unset => exact absurd rfl hv
    | unchanged _ hu' he' => rw [hu] at hu'; cases hu'; rw [he] at he'; cases he'
    | still _ hu' he' => rw [hu] at hu'; cases hu'; rw [he] at he'; cases he'
    | changed _ hu' _ hct' hb => rw [hu] at hu'; cases hu'; rw [ih hb, change_unique hct hct']

theorem diffs_unique {ds : List (Str × Option Bytes × Option Bytes)} {a b : List Str} (ha : DiffTexts udiff ds a) (hb : DiffTexts udiff ds b) : a = b := by
  induction ha generalizing b with
  | nil => cases hb; rfl
  | cons ht _ ih =>
    cases hb with
    | cons ht' hb => rw [ht, ht', ih hb]

theorem summary_unique {t : Title} {r : Report} {a b : List Str} (ha : Summary udiff repr o t r a) (hb : Summary udiff repr o t r b) : a = b := by
  cases ha with
  | failed h =>
    cases hb with
    | failed => rfl
    | quiet h' => rw [h] at h'; cases h'
    | changes h' => rw [h] at h'; cases h'
  | quiet h hc =>
    cases hb with
    | failed h' => rw [h] at h'; cases h'
    | quiet => rfl
    | changes _ hc' => rw [hc] at hc'; cases hc'
  | changes h hc hts hds =>
    cases hb with
    | failed h' => rw [h] at h'; cases h'
    | quiet _ hc' => rw [hc] at hc'; cases hc'
    | changes _ _ hts' hds' =>
      rw [states_unique hts hts']
      split at hds
      · next hd => rw [if_pos hd] at hds'; rw [diffs_unique hds hds']
      · next hd => rw [if_neg hd] at hds'; rw [hds, hds']

/-- C114: what is expected of a script determines the lines, and whether there is an exception. -/
theorem C114_determined {depth : Nat} {code : Code} {a b : List Str} {fa fb : Bool} (ha : Lines udiff repr o depth code a fa)
    (hb : Lines udiff repr o depth code b fb) : a = b ∧ fa = fb := by
  induction ha generalizing b fb with
  | done => cases hb; exact ⟨rfl, rfl⟩
  | throw => cases hb; exact ⟨rfl, rfl⟩
  | operation hs _ ih =>
    cases hb with
    | operation hs' hb =>
      obtain ⟨rfl, rfl⟩ := ih hb
      rw [summary_unique hs hs']
      exact ⟨rfl, rfl⟩
  | nested _ _ ih1 ih2 =>
    cases hb with
    | nested h1 h2 =>
      obtain ⟨rfl, rfl⟩ := ih1 h1
      obtain ⟨rfl, rfl⟩ := ih2 h2
      exact ⟨rfl, rfl⟩
  | script _ _ ih1 ih2 =>
    cases hb with
    | script h1 h2 =>
      obtain ⟨rfl, rfl⟩ := ih1 h1
      obtain ⟨rfl, rfl⟩ := ih2 h2
      exact ⟨rfl, rfl⟩

/-! ### An example -/

namespace Example

/-- Two hosts. On the first one the script uploads a directory, and another script fails, which is handled. -/
def hosts : List HostRun :=
  [{ name := p!"web", url := p!"ssh://web", opening := .open
     code := .nested { opName := p!"upload_dir", description := p!"/srv" }
       (.operation true { opName := p!"directory", description := p!"/srv" } { result := { success := true, changed := true, initial := [(p!"mode", .null)], final := [(p!"mode", .str p!"755")] }, diffs := [] } false
         fun _ => .done)
       fun _ => .script p!"db.py" none
         (.operation true { opName := p!"package", description := p!"mariadb" } { result := { success := false, changed := false, initial := [], final := [], failureMessage := some p!"no space left" }, diffs := [] } true
           fun failed => if failed then .throw else .done)
         fun _ => .operation false { opName := p!"file", description := p!"/tmp/x", name := some p!"last" } { result := { success := true, changed := false, initial := [], final := [] }, diffs := [] } false fun _ => .done },
   { name := p!"mail", url := p!"ssh://mail", opening := .failed (some 255) [], code := .done }]

end Example

theorem Example.tame : ∀ h ∈ Example.hosts, h.Tame Run.Example.repr := by
  have hnil : ∀ {s : Str}, (27 ∉ s ∧ 10 ∉ s ∧ 13 ∉ s) → Tame s := fun h => h
  intro h hh
  simp only [Example.hosts, List.mem_cons, List.not_mem_nil, or_false] at hh
  rcases hh with rfl | rfl
  · refine ⟨hnil (by decide), hnil (by decide), nofun, ?_⟩
    refine ⟨⟨hnil (by decide), hnil (by decide), nofun⟩, ⟨⟨hnil (by decide), hnil (by decide), nofun⟩, ?_, fun _ => trivial⟩, fun _ => ?_⟩
    · refine ⟨nofun, ?_, ?_, nofun, ?_⟩
      · intro k v hm
        simp only [List.mem_singleton, Prod.mk.injEq] at hm
        obtain ⟨-, rfl⟩ := hm
        exact hnil (by decide)
      · intro k v hm
        simp only [List.mem_singleton, Prod.mk.injEq] at hm
        obtain ⟨rfl, rfl⟩ := hm
        exact ⟨hnil (by decide), hnil (by decide)⟩
      · intro k v hm _
        simp only [List.mem_singleton, Prod.mk.injEq] at hm
        obtain ⟨rfl, rfl⟩ := hm
        decide
    · refine ⟨hnil (by decide), nofun, ⟨⟨hnil (by decide), hnil (by decide), nofun⟩, ⟨?_, nofun, nofun, nofun, nofun⟩, fun b => ?_⟩, fun _ =>
        ⟨⟨hnil (by decide), hnil (by decide), ?_⟩, ⟨nofun, nofun, nofun, nofun, nofun⟩, fun _ => trivial⟩⟩
      · rintro m ⟨⟩
        exact hnil (by decide)
      · cases b <;> trivial
      · rintro n ⟨⟩
        exact hnil (by decide)
  · refine ⟨hnil (by decide), hnil (by decide), ?_, trivial⟩
    rintro c m ⟨⟩
    exact hnil (by decide)

example : ∃ lines, HostLines Run.Example.udiff Run.Example.repr {} p!"deploy.py" Example.hosts lines true
    ∧ Displays (run Run.Example.udiff Run.Example.repr {} p!"deploy.py" Example.hosts).text lines :=
  C114_run (o := {}) (by
    intro a b l hl
    simp only [Run.Example.udiff, List.cons_append, List.nil_append, List.drop_succ_cons, List.drop_zero, List.mem_cons, List.mem_append, List.mem_map] at hl
    rcases hl with rfl | ⟨x, _, rfl⟩ | ⟨x, _, rfl⟩ <;> simp) rfl ⟨by unfold NoEsc; decide, by unfold OneLine; decide⟩ Example.hosts Example.tame (by decide)

/-- Its page. -/
example : (page []).puts (run Run.Example.udiff Run.Example.repr { noColor := true } p!"deploy.py" Example.hosts).text =
    page [p!"host web via ssh://web", p!"script deploy.py (cmdline)", p!"  upload_dir /srv", p!"    directory /srv", p!"    └ mode: 755", p!"  script db.py",
      p!"    package mariadb", p!"     └ no space left", p!"  file /tmp/x (last)", [], p!"host mail via ssh://mail", p!"ERR", p!" └ command exited with code 255"] := by
  decide +kernel

end Verif.Run.Transcript
