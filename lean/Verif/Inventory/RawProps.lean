/-
C108: malformed declarations.
-/
import Verif.Inventory.RawLemmas
import Verif.Inventory.GroupProps

namespace Verif.Inventory

/-- C108: what has the documented types is processed as if there were no other values: with the same result, or the same exception,
as in Inventory/Decl.lean, which all other properties of inventories are about. -/
theorem C108_documented (text : PyVal → Str) (order : List Key → List Key) (so : SetOrder) (ho : SameOrder order so)
    (rs : List (RawEntry RawHost)) (es : List (Entry HostDecl)) (h : Each HostEntry rs es) (rgs : RawGroups) (gs : Option (List (Entry GroupDecl)))
    (hg : GroupEntries rgs gs) :
    rawPreprocess text order rs rgs = (do
      let hs ← preprocessHosts so es []
      let ds ← preprocessGroups so gs hs
      .ok (hs.map hostResult, ds.map groupResult)) := rawPreprocess_entries ho h hg

theorem rawHosts_malformed {text : PyVal → Str} {order : List Key → List Key} {e : RawEntry RawHost} (h : MalformedHost e) :
    ∀ {es : List (RawEntry RawHost)} {decls : List (Key × RawHostDecl)}, e ∈ es → ∃ x, rawHosts text order es decls = .error x
  | y :: es, decls, hm => by
    rw [rawHosts]
    rcases List.mem_cons.mp hm with rfl | hm
    · obtain ⟨x, hx, _⟩ := rawAddHost_malformed (text := text) (order := order) h decls
      rw [hx]; exact ⟨x, rfl⟩
    · cases rawAddHost text order decls y with
      | error x => exact ⟨x, rfl⟩
      | ok ds => exact rawHosts_malformed h hm

theorem rawAddGroups_malformed {order : List Key → List Key} {e : RawEntry RawGroup} (h : MalformedGroup e) :
    ∀ {es : List (RawEntry RawGroup)} {decls : List (Key × RawGroupDecl)}, e ∈ es → ∃ x, rawAddGroups order es decls = .error x
  | y :: es, decls, hm => by
    rw [rawAddGroups]
    rcases List.mem_cons.mp hm with rfl | hm
    · obtain ⟨x, hx, _⟩ := rawAddGroup_malformed (order := order) h decls
      rw [hx]; exact ⟨x, rfl⟩
    · cases rawAddGroup order decls y with
      | error x => exact ⟨x, rfl⟩
      | ok ds => exact rawAddGroups_malformed h hm

/-- C108, the part that holds: an inventory with a malformed declaration of a host or a group is rejected; and if it is the first
declaration, with a `ValueError`, a `TypeError` or an `AttributeError`. Missing is that everything of the wrong type counts as malformed (it does
not, see below), and that it is always a `ValueError`, which is what the documentation of `load` says. -/
theorem C108_malformed_partial (text : PyVal → Str) (order : List Key → List Key) (hosts : List (RawEntry RawHost)) (groups : RawGroups) :
    ((∃ e ∈ hosts, MalformedHost e) → ∃ x, rawPreprocess text order hosts groups = .error x)
    ∧ (∀ gs, groups = .list gs → (∃ e ∈ gs, MalformedGroup e) → ∃ x, rawPreprocess text order hosts groups = .error x)
    ∧ (groups = .other → ∃ x, rawPreprocess text order hosts groups = .error x)
    ∧ (∀ e rest, hosts = e :: rest → MalformedHost e → ∃ x, rawPreprocess text order hosts groups = .error x
        ∧ (x.isValueError = true ∨ x = .typeError ∨ x = .attributeError)) := by
  refine ⟨?_, ?_, ?_, ?_⟩
  · rintro ⟨e, hm, h⟩
    obtain ⟨x, hx⟩ := rawHosts_malformed (text := text) (order := order) h (decls := []) hm
    exact ⟨x, by simp only [rawPreprocess, hx, bind, Except.bind]⟩
  · rintro gs rfl ⟨e, hm, h⟩
    unfold rawPreprocess
    cases rawHosts text order hosts [] with
    | error x => exact ⟨x, rfl⟩
    | ok hs =>
      obtain ⟨x, hx⟩ := rawAddGroups_malformed (order := order) h (decls := []) hm
      exact ⟨x, by simp only [rawDeclaredGroups, hx, bind, Except.bind]⟩
  · rintro rfl
    unfold rawPreprocess
    cases rawHosts text order hosts [] with
    | error x => exact ⟨x, rfl⟩
    | ok hs => exact ⟨_, rfl⟩
  · rintro e rest rfl h
    obtain ⟨x, hx, hc⟩ := rawAddHost_malformed (text := text) (order := order) h []
    exact ⟨x, by simp only [rawPreprocess, rawHosts, hx, bind, Except.bind], hc⟩

/-- Sets of any elements, enumerated in the order of last insertion. -/
def Example.keyOrder : List Key → List Key
  | [] => []
  | x :: l => if x ∈ Example.keyOrder l then Example.keyOrder l else x :: Example.keyOrder l

theorem Example.sameOrder : SameOrder Example.keyOrder Example.setOrder := by
  intro l
  show _ = (Example.dedup l).map Key.str
  induction l with
  | nil => rfl
  | cons x l ih =>
    rw [List.map_cons, Example.keyOrder, ih, Example.dedup]
    by_cases h : x ∈ Example.dedup l
    · rw [if_pos h, if_pos (List.mem_map_of_mem h)]
    · rw [if_neg h, if_neg, List.map_cons]
      intro hm
      obtain ⟨y, hy, he⟩ := List.mem_map.mp hm
      cases he
      exact h hy

/-- A dict with a misspelt key is rejected, and so is a number in the list of hosts, `groups=None`, and a host without name and url. -/
example (text : PyVal → Str) (order : List Key → List Key) (groups : RawGroups) :
    ∀ e ∈ ([.val (.dict [(.str p!"hostname", .str p!"web")]), .val (.key (.num 5)), .decl { url := .str p!"web", groups := .none }, .decl {}] :
      List (RawEntry RawHost)), ∃ x, rawPreprocess text order [.val (.str p!"db"), e] groups = .error x := by
  intro e he
  refine (C108_malformed_partial text order _ groups).1 ⟨e, by simp, ?_⟩
  simp only [List.mem_cons, List.not_mem_nil, or_false] at he
  rcases he with rfl | rfl | rfl | rfl
  · exact .field _ (.str p!"hostname") (.str p!"web") (.head _) (by unfold IsHostField; decide)
  · exact .kind _ nofun nofun
  · exact .fields _ _ (.decl _) (.inr (.inr (.inr (.inl ⟨_, rfl, nofun⟩))))
  · exact .fields _ _ (.decl _) (.inr (.inl ⟨rfl, rfl⟩))

/-- Entries of documented types. -/
example : Each HostEntry [.val (.str p!"root@web"), .val (.dict [(.str p!"groups", .list [.str p!"servers"]), (.str p!"name", .str p!"db")])] Example.hosts :=
  .cons (.str _) (.cons (.dict _ _ ⟨by unfold IsHostField; decide, .inr ⟨by decide, rfl⟩, .inl rfl, .inr ⟨by decide, rfl⟩, .inl rfl, .inr ⟨by decide, rfl⟩⟩) .nil)

example : GroupEntries (.list [.val (.str p!"all"), .val (.dict [(.str p!"name", .str p!"web"), (.str p!"before", .list [.str p!"db"])])])
    (some [.str p!"all", .dict (some { name := p!"web", before := [p!"db"] })]) :=
  .list _ _ (.cons (.str _) (.cons (.dict _ _ ⟨by unfold IsGroupField; decide, rfl, .inr ⟨by decide, rfl⟩, .inr ⟨by decide, rfl⟩, .inl rfl⟩) .nil))

/-- C108 does not hold in general: that everything that is accepted has the documented types. The groups of a host may be a text, which is
taken for the list of its characters; without a declaration of groups, the host is then in groups that nobody meant. -/
theorem C108_text_for_groups_refuted :
    ¬ ∀ (text : PyVal → Str) (order : List Key → List Key) (hosts : List (RawEntry RawHost)) (groups : RawGroups) r,
      rawPreprocess text order hosts groups = .ok r → ∀ e ∈ hosts, Documented e := by
  intro h
  have h1 := h (fun _ => []) id [.val (.dict [(.str p!"url", .str p!"web"), (.str p!"groups", .str p!"db")])] .absent _ rfl _ (.head _)
  obtain ⟨d, hd⟩ := h1
  have h2 := congrArg (fun x : Except Exn RawHost => match x with | .ok d => (match d.groups with | .list _ => true | _ => false) | _ => false) (host_declares hd)
  simp only [HostDecl.raw, texts] at h2
  exact absurd h2 (by decide)

/-- What becomes of it: the same as of a list. -/
theorem C108_text_is_letters (text : PyVal → Str) (order : List Key → List Key) (d : RawHost) (s : Str) (decls : List (Key × RawHostDecl)) :
    rawAddHost text order decls (.decl { d with groups := .str s }) = rawAddHost text order decls (.decl { d with groups := texts (s.map fun c => [c]) }) := by
  have h : (PyVal.str s).elements = (texts (s.map fun c => [c])).elements := by
    rw [elements_texts, List.map_map]; rfl
  simp only [rawAddHost, RawEntry.host, bind, Except.bind]
  rw [h]
  rfl

/-- C108 does not hold for names either: a number is accepted as a name, under which no host can be selected on the command line. -/
theorem C108_number_for_name_refuted :
    ¬ ∀ (text : PyVal → Str) (order : List Key → List Key) (hosts : List (RawEntry RawHost)) (groups : RawGroups) r,
      rawPreprocess text order hosts groups = .ok r → ∀ h ∈ r.1, ∃ s, h.1 = .str s := by
  intro h
  obtain ⟨s, hs⟩ := h (fun _ => []) id [.decl { name := .key (.num 5) }] .absent _ rfl _ (.head _)
  cases hs

/-- And rejections need not be `ValueError`s, which are the only ones that are reported as errors of the inventory. -/
theorem C108_value_error_refuted :
    ¬ ∀ (text : PyVal → Str) (order : List Key → List Key) (hosts : List (RawEntry RawHost)) (groups : RawGroups) x,
      rawPreprocess text order hosts groups = .error x → x.isValueError = true := by
  intro h
  have h1 := h (fun _ => []) id [.decl { url := .str p!"web", groups := .none }] .absent _ rfl
  cases h1

end Verif.Inventory
