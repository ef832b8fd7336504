/-
C90: what the command line means.
-/
import Verif.Run.CmdlineLemmas

namespace Verif.Run

/-- C90, scripts. A script is run if and only if every argument is an operand or an option that has a meaning, possibly abbreviated,
and there are exactly two operands: the inventory and the script. The options, in whatever order and wherever they are, are those that
were asked for, and no others; of several lists of hosts the last one counts. -/
theorem C90_run (noColorSet tty : Bool) (argv : List Str) (o : Options) (hosts : Option Str) (inventory script : Str) :
    mainCmdline noColorSet tty argv = .run o hosts inventory script
      ↔ ∃ ws, Means argv ws ∧ operandsOf ws = [inventory, script] ∧ hosts = hostsOf ws ∧ o = optionsOf noColorSet tty ws := by
  unfold mainCmdline
  constructor
  · intro h
    cases hc : classifyAll argv with
    | none => rw [hc] at h; cases h
    | some args =>
      rw [hc] at h
      obtain ⟨ws, hm, hf⟩ := consume_sound _ (Nat.le_refl _) hc h
      exact ⟨ws, hm, finish_iff.mp hf⟩
  · rintro ⟨ws, hm, h⟩
    obtain ⟨args, hc, ha⟩ := means_consume noColorSet tty hm
    rw [hc]
    exact (ha {}).trans (finish_iff.mpr h)

/-- C90, dry runs. The run is a dry one if and only if one of the arguments up to `--` is `--dry`, `--dry-run` or `--pretend`, or an
abbreviation of one of them. -/
theorem C90_dry {noColorSet tty : Bool} {argv : List Str} {o : Options} {hosts : Option Str} {inventory script : Str}
    (h : mainCmdline noColorSet tty argv = .run o hosts inventory script) :
    o.dry = true ↔ ∃ s ∈ beforeDashes argv, Stands s p!"--dry" ∨ Stands s p!"--dry-run" ∨ Stands s p!"--pretend" := by
  obtain ⟨ws, hm, _, _, rfl⟩ := (C90_run ..).mp h
  have hn : ∀ name, (name, Wish.dry) ∈ wishNames ↔ name = p!"--dry" ∨ name = p!"--dry-run" ∨ name = p!"--pretend" := fun name => by
    simp [wishNames]
  have : (optionsOf noColorSet tty ws).dry = true ↔ .dry ∈ ws := by simp [optionsOf]
  rw [this, means_dry hm]
  unfold AsksDry
  constructor
  · rintro ⟨s, hs, name, hw, hst⟩
    rcases (hn name).mp hw with rfl | rfl | rfl
    · exact ⟨s, hs, .inl hst⟩
    · exact ⟨s, hs, .inr (.inl hst)⟩
    · exact ⟨s, hs, .inr (.inr hst)⟩
  · rintro ⟨s, hs, h | h | h⟩
    · exact ⟨s, hs, _, (hn _).mpr (.inl rfl), h⟩
    · exact ⟨s, hs, _, (hn _).mpr (.inr (.inl rfl)), h⟩
    · exact ⟨s, hs, _, (hn _).mpr (.inr (.inr rfl)), h⟩

/-- C90, `--init` and `--inspect-inventory` only if asked. A deploy is created, or an inventory shown, only if there is such an option
before `--`, with this value; the layout is one of those that there are. No argument is ambiguous then. -/
theorem C90_asked (noColorSet tty : Bool) (argv : List Str) :
    (∀ v, mainCmdline noColorSet tty argv = .init v →
      v ∈ layouts ∧ (∃ pre post, argv = pre ++ post ∧ p!"--" ∉ pre ∧ Given p!"--init" v post) ∧ ¬ ∃ s ∈ beforeDashes argv, Ambiguous s)
    ∧ (∀ v, mainCmdline noColorSet tty argv = .inspect v →
      (∃ pre post, argv = pre ++ post ∧ p!"--" ∉ pre ∧ Given p!"--inspect-inventory" v post) ∧ ¬ ∃ s ∈ beforeDashes argv, Ambiguous s) := by
  unfold mainCmdline
  cases hc : classifyAll argv with
  | none => exact ⟨nofun, nofun⟩
  | some args =>
    have hna : ¬ ∃ s ∈ beforeDashes argv, Ambiguous s := fun h => by rw [classifyAll_none.mpr h] at hc; cases hc
    refine ⟨fun v h => ?_, fun v h => ⟨consume_asked (.inr ⟨rfl, rfl, rfl⟩) _ (Nat.le_refl _) hc h, hna⟩⟩
    have hv : v ∈ initChoices := consume_init_choice _ (Nat.le_refl _) h
    exact ⟨hv, consume_asked (.inl ⟨rfl, rfl, rfl, hv⟩) _ (Nat.le_refl _) hc h, hna⟩

/-- C90, `--init` and `--inspect-inventory` are done as soon as they are met: what comes after them does not matter, unless it is
ambiguous. An unknown layout is an error. -/
theorem C90_immediate (noColorSet tty : Bool) {pre post : List Str} {ws : List Wish} (hp : Means pre ws) (hd : p!"--" ∉ pre)
    (ha : ¬ ∃ s ∈ beforeDashes (pre ++ post), Ambiguous s) :
    (∀ v, Given p!"--init" v post → mainCmdline noColorSet tty (pre ++ post) = if v ∈ layouts then .init v else .usage)
    ∧ (∀ v, Given p!"--inspect-inventory" v post → mainCmdline noColorSet tty (pre ++ post) = .inspect v) := by
  have hb : beforeDashes (pre ++ post) = pre ++ beforeDashes post := by
    unfold beforeDashes
    rw [List.takeWhile_append_of_pos]
    intro x hx
    have : x ≠ p!"--" := fun e => hd (e ▸ hx)
    simpa using this
  cases hc : classifyAll post with
  | none =>
    obtain ⟨s, hs, h⟩ := classifyAll_none.mp hc
    exact absurd ⟨s, by rw [hb]; simp [hs], h⟩ ha
  | some args2 =>
    obtain ⟨args, hall, hrun⟩ := means_prefix noColorSet tty hp hc hd
    unfold mainCmdline
    rw [hall]
    simp only [hrun]
    refine ⟨fun v hg => ?_, fun v hg => ?_⟩
    · obtain ⟨rest, h⟩ := consume_given (nc := noColorSet) (tty := tty) (ns := ({} : Namespace).grants ws) (o := (p!"--init", .init)) (by decide) rfl hg hc
      rw [h]
      have hl : v ∈ layouts ↔ v ∈ initChoices := Iff.rfl
      by_cases hv : v ∈ initChoices
      · rw [if_pos (hl.mpr hv)]; simp [Act.value, hv]
      · rw [if_neg (fun h => hv (hl.mp h))]; simp [Act.value, hv]
    · obtain ⟨rest, h⟩ := consume_given (nc := noColorSet) (tty := tty) (ns := ({} : Namespace).grants ws) (o := (p!"--inspect-inventory", .inspect)) (by decide) rfl hg hc
      rw [h]
      rfl

/-- C90, ambiguous abbreviations. If an argument before `--` is the beginning of several options, nothing at all is done. -/
theorem C90_ambiguous (noColorSet tty : Bool) {argv : List Str} (h : ∃ s ∈ beforeDashes argv, Ambiguous s) : mainCmdline noColorSet tty argv = .usage := by
  unfold mainCmdline
  rw [classifyAll_none.mpr h]

namespace Example

/-- `fora -vH web,db --pre inventory.py -v -- deploy.py` -/
def argv : List Str := [p!"-vH", p!"web,db", p!"--pre", p!"inventory.py", p!"-v", p!"--", p!"deploy.py"]

/-- It has a meaning, and this is the outcome. -/
example : Means argv [.verbose, .hosts p!"web,db", .dry, .operand p!"inventory.py", .verbose, .operand p!"deploy.py"] :=
  .shortHosts (n := 1) (eq := false) nofun (.inl (by decide)) <|
    .flag (name := p!"--pretend") (by decide) ⟨by decide, by decide, by decide, by decide⟩ <|
    .operand (.inl (by decide)) <| .short (n := 1) (eq := false) (by decide) nofun <| .dashes (r := [p!"deploy.py"])

example : ∃ o, mainCmdline false true argv = .run o (some p!"web,db") p!"inventory.py" p!"deploy.py" ∧ o.dry = true ∧ o.verbose = 2
    ∧ o.noColor = false ∧ o.diff = false := ⟨_, rfl, by decide, by decide, by decide, by decide⟩

/-- The kind of an outcome. -/
def kind : Outcome → Nat
  | .usage => 0
  | .shown => 1
  | .init _ => 2
  | .inspect _ => 3
  | .run .. => 4

/-- `--dr` may be `--dry` or `--dry-run`; `--dry` is itself. -/
example : Ambiguous p!"--dr" ∧ ¬ Ambiguous p!"--dry" :=
  ⟨⟨by decide, by decide, p!"--dry", by decide, p!"--dry-run", by decide, by decide, by decide, by decide⟩, fun h => h.2.1 (by decide)⟩

/-- Nothing is done with an unknown option, an ambiguous one, too many or too few operands, or an option without its value. -/
example : [[p!"inv", p!"scr", p!"--dry-rum"], [p!"inv", p!"scr", p!"--dr"], [p!"inv", p!"scr", p!"x"], [p!"inv"], [p!"inv", p!"scr", p!"-H"],
    [p!"inv", p!"scr", p!"--dry=no"]].map (fun a => kind (mainCmdline false true a)) = [0, 0, 0, 0, 0, 0] := by decide

/-- A deploy is created even if there is something wrong with another argument, but not if one of them is ambiguous. -/
example : mainCmdline false true [p!"--foo", p!"--init", p!"minimal", p!"--bar"] = .init p!"minimal"
    ∧ mainCmdline false true [p!"--init", p!"minimal", p!"--dr"] = .usage
    ∧ mainCmdline false true [p!"--init=huge"] = .usage
    ∧ mainCmdline false true [p!"--ins", p!"inv.py"] = .inspect p!"inv.py"
    ∧ mainCmdline false true [p!"-vh"] = .shown := ⟨rfl, rfl, rfl, rfl, rfl⟩

/-- The hypotheses of `C90_immediate`. -/
example : Means [p!"-v"] [.verbose] ∧ Given p!"--init" p!"flat" [p!"--init=flat", p!"--bar"] ∧ Given p!"--inspect-inventory" p!"a" [p!"--ins", p!"a"] :=
  ⟨.short (n := 1) (eq := false) (by decide) nofun .nil,
    ⟨p!"--init", [p!"--bar"], ⟨by decide, by decide, by decide, by decide⟩, .inr rfl⟩,
    ⟨p!"--ins", [], ⟨by decide, by decide, by decide, by decide⟩, .inl ⟨rfl, .inl (by decide)⟩⟩⟩

/-- Negative numbers and what contains a space are operands, if they are no options. -/
example : Operand p!"-5" ∧ Operand p!"-x y" ∧ ¬ Operand p!"-x" ∧ classify p!"-x" = some .unknown :=
  ⟨.inr (.inr ⟨p!"5", rfl, ⟨by decide, by decide⟩, .inl (.inl ⟨by decide, by decide⟩)⟩), .inr (.inr ⟨p!"x y", rfl, ⟨by decide, by decide⟩, .inr (by decide)⟩),
    fun h => by have := classify_operand h; revert this; decide, rfl⟩

end Example

end Verif.Run
