/-
C34: file operations affect the named path only, however they end.
-/
import Verif.Ops.ManageLemmas
import Verif.Ops.Example

namespace Verif.Ops

open Script Remote

section
variable {w w' : World} {path : Str} {l : Loc} {o : Option Node}

theorem untouched_same {p : Loc → Prop} (h : Same w w') : Untouched p w w' := by
  refine ⟨fun q _ => by rw [h], ?_⟩
  rw [h]

theorem untouched_now {p : Loc → Prop} (h : Now path l w o w') (hl : p l) : Untouched p w w' := by
  refine ⟨fun q hq => ?_, ?_⟩
  · rw [h.fs, setNode_ne _ _ (by rintro rfl; exact hq hl : q ≠ l)]
  · rw [h.eq]; rfl

theorem untouched_set {p : Loc → Prop} {s : List Proc} (hl : p l) : Untouched p w { w.set l o with started := s } := by
  refine ⟨fun q hq => ?_, rfl⟩
  show setNode w.fs l o q = _
  rw [setNode_ne _ _ (by rintro rfl; exact hq hl : q ≠ l)]

end

/-- C34 for `directory`. Whether it succeeds, fails or raises, and wherever the connection breaks: nothing is changed except
the directory itself, or for `present=False` the directory with what is in it; no accounts, packages, services, ... -/
theorem C34_directory_frame (sys : Sys) (tools : Tools) (lost : Nat → Option Bool) (env : Env) (st : St) (w : World) (hord : Ordinary sys tools w)
    (hm : PlainModes env st) (path : Str) (present touch : Bool) (mode owner group : Option Str) (check : Bool) :
    Untouched (fun q => ∃ l, Denotes w path l ∧ (q = l ∨ present = false ∧ under l q = true)) w
      (perform sys lost (directory path present touch mode owner group check) env st w).2 := by
  have key : ∀ w', DirectoryLeft env st path present mode owner group w w' →
      Untouched (fun q => ∃ l, Denotes w path l ∧ (q = l ∨ present = false ∧ under l q = true)) w w' := by
    intro w' h
    rcases h with h | ⟨rfl, attr, t, l, _, _, hr, o, hn, _⟩ | ⟨rfl, l, _, k, s, hr, _, rfl⟩
    · exact untouched_same h
    · exact untouched_now hn ⟨l, hr, .inl rfl⟩
    · refine ⟨fun q hq => ?_, rfl⟩
      show removeMost w.fs l k q = w.fs q
      unfold removeMost
      split
      · next h => exact absurd ⟨l, hr, .inr ⟨rfl, (Bool.and_eq_true_iff.mp h).1⟩⟩ hq
      · rfl
  exact key _ (post_world (directory_post hord hm) (fun _ _ _ h => h.1.2))

/-- C34 for `file`. -/
theorem C34_file_frame (sys : Sys) (tools : Tools) (lost : Nat → Option Bool) (env : Env) (st : St) (w : World) (hord : Ordinary sys tools w)
    (hm : PlainModes env st) (path : Str) (present touch : Bool) (mode owner group : Option Str) (check : Bool) :
    Untouched (Denotes w path) w (perform sys lost (file path present touch mode owner group check) env st w).2 := by
  have key : ∀ w', FileRest path present w w' → Untouched (Denotes w path) w w' := by
    intro w' h
    rcases h with h | ⟨_, l, hr, o, hn, _⟩ | ⟨_, l, _, s, hr, _, _, rfl⟩
    · exact untouched_same h
    · exact untouched_now hn hr
    · exact untouched_set hr
  exact key _ (post_world (file_post hord hm) (fun _ _ _ h => h.1.2))

/-- C34 for uploads and templates, also with partially written content. -/
theorem C34_store_frame (sys : Sys) (tools : Tools) (lost : Nat → Option Bool) (env : Env) (st : St) (w : World) (hord : Ordinary sys tools w)
    (hm : PlainModes env st) (op : Op OpResult) (path : Str) (source : Except Exn Bytes) (mode owner group : Option Str) (check : Bool)
    (hop : Stores sys.sha512 mode owner group check op path source) :
    Untouched (Denotes w path) w (perform sys lost op env st w).2 := by
  have key : ∀ w', StoreRest source path w w' → Untouched (Denotes w path) w w' := by
    intro w' h
    rcases h with h | ⟨_, _, h | ⟨l, hr, _, o, hn, _⟩⟩
    · exact untouched_same h
    · exact untouched_same h
    · exact untouched_now hn hr
  exact key _ (post_world (store_post hop hord hm) (fun _ _ _ h => h.1.2))

/-- C34 for `link`, provided that the path does not lead to a directory (unless that link has the right target already). -/
theorem C34_link_frame_partial (sys : Sys) (tools : Tools) (lost : Nat → Option Bool) (env : Env) (st : St) (w : World) (hord : Ordinary sys tools w)
    (hm : PlainModes env st) (path target : Str) (present touch : Bool) (owner group : Option Str) (check : Bool) (hpl : Plain target)
    (hdir : Direct w path) (hnd : present = true → HasTarget w path target ∨ NotToDirectory w path) :
    Untouched (Denotes w path) w (perform sys lost (link path target present touch owner group check) env st w).2 := by
  have key : ∀ w', LinkRest path target present w w' → Untouched (Denotes w path) w w' := by
    intro w' h
    rcases h with h | ⟨_, l, hr, o, hn, _⟩ | ⟨_, l, _, s, hr, _, _, rfl⟩
    · exact untouched_same h
    · exact untouched_now hn hr
    · exact untouched_set hr
  exact key _ (post_world (link_post hord hm hpl hdir hnd) (fun _ _ _ h => h.1.2))

/-- C34 is false for a link that leads to a directory: `link(path="/link", target="/home")` on a host where `/link` points to
`/etc` creates `/etc/home` and leaves `/link` alone; the operation reports success. -/
theorem C34_link_frame_refuted :
    (∃ r, (perform Example.sys Example.always (link p!"/link" p!"/home" true false none none true) Example.env Example.st Example.host).1 = .ok r
      ∧ r.success = true)
    ∧ Denotes Example.host p!"/link" [p!"link"]
    ∧ ¬ Untouched (Denotes Example.host p!"/link") Example.host
      (perform Example.sys Example.always (link p!"/link" p!"/home" true false none none true) Example.env Example.st Example.host).2 := by
  refine ⟨⟨_, rfl, by decide +kernel⟩, rfl, ?_⟩
  intro h
  have h1 : ¬ Denotes Example.host p!"/link" [p!"etc", p!"home"] := by
    intro h
    have : Denotes Example.host p!"/link" [p!"link"] := rfl
    unfold Denotes at h this
    rw [h] at this
    exact absurd (Except.ok.inj this) (by decide)
  have h2 := h.fs _ h1
  have h3 : ((perform Example.sys Example.always (link p!"/link" p!"/home" true false none none true) Example.env Example.st Example.host).2.fs
    [p!"etc", p!"home"]).isSome = true := by decide +kernel
  rw [h2] at h3
  exact absurd h3 (by decide +kernel)

/-- On the example host, removing `/etc` removes the file in it and nothing else. -/
example : let w' := (perform Example.sys Example.always (directory p!"/etc" false false none none none true) Example.env Example.st Example.host).2
    w'.fs [p!"etc"] = none ∧ w'.fs [p!"etc", p!"motd"] = none ∧ (w'.fs [p!"home"]).isSome = true := by decide +kernel

/-- The hypotheses are met by the example host. -/
example (path : Str) (present touch : Bool) (mode : Option Str) :=
  C34_directory_frame Example.sys Example.tools Example.always Example.env Example.st Example.host Example.ordinary Example.plainModes path present touch mode none none

end Verif.Ops
