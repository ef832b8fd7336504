/-
Lemmas about declarations with values of any types.
-/
import Verif.Inventory.RawSpec

namespace Verif.Inventory

theorem hashAll_texts : ∀ l : List Str, PyVal.hashAll (l.map PyVal.str) = .ok (l.map .str)
  | [] => rfl
  | _ :: l => by
    rw [List.map_cons, PyVal.hashAll, hashAll_texts l]
    rfl

theorem elements_texts (l : List Str) : (texts l).elements = .ok (l.map .str) := hashAll_texts l

theorem hashAll_error {v : PyVal} (hv : NotHashable v) : ∀ {l : List PyVal}, v ∈ l → PyVal.hashAll l = .error .typeError
  | x :: l, h => by
    rw [PyVal.hashAll]
    cases x with
    | key k =>
      rcases List.mem_cons.mp h with rfl | h
      · exact absurd rfl (hv k)
      · rw [hashAll_error hv h]; rfl
    | list => rfl
    | dict => rfl

theorem hash_error {v : PyVal} (hv : NotHashable v) : v.hash = .error .typeError := by
  cases v with
  | key k => exact absurd rfl (hv k)
  | list => rfl
  | dict => rfl

theorem elements_error {v : PyVal} (h : NotEnumerable v ∨ ∃ l x, v = .list l ∧ x ∈ l ∧ NotHashable x) : v.elements = .error .typeError := by
  rcases h with ⟨k, rfl, hk⟩ | ⟨l, x, rfl, hx, hn⟩
  · cases k with
    | str s => exact absurd rfl (hk s)
    | _ => rfl
  · exact hashAll_error hn hx

theorem lookup_none_of {items : List (Key × PyVal)} {k : Key} (h : ∀ i ∈ items, i.1 ≠ k) : items.lookup k = none := by
  induction items with
  | nil => rfl
  | cons i items ih =>
    rw [List.lookup_cons]
    have : (k == i.1) = false := by simpa using (h i (by simp)).symm
    rw [this]
    exact ih fun j hj => h j (by simp [hj])

theorem get_field {items : List (Key × PyVal)} {k : Str} {default v : PyVal} (h : Field items k default v) : PyVal.get items k default = v := by
  rcases h with h | ⟨h, rfl⟩
  · rw [PyVal.get, h]; rfl
  · rw [PyVal.get, lookup_none_of h]; rfl

theorem isHostField {k : Key} : k ∈ hostKeys.map Key.str ↔ IsHostField k := by
  simp only [hostKeys, List.map_cons, List.map_nil, List.mem_cons, List.not_mem_nil, or_false, IsHostField]

theorem isGroupField {k : Key} : k ∈ groupKeys.map Key.str ↔ IsGroupField k := by
  simp only [groupKeys, List.map_cons, List.map_nil, List.mem_cons, List.not_mem_nil, or_false, IsGroupField]

theorem makeHost_fields {items : List (Key × PyVal)} {d : RawHost} (h : HostFields items d) : makeHost items = .ok d := by
  rw [makeHost, if_pos fun i hi => isHostField.mpr (h.known i hi), get_field h.url, get_field h.name, get_field h.file, get_field h.groups, get_field h.vars]

theorem makeGroup_fields {items : List (Key × PyVal)} {d : RawGroup} (h : GroupFields items d) : makeGroup items = .ok d := by
  rw [makeGroup, if_pos fun i hi => isGroupField.mpr (h.known i hi), h.name]
  simp only [get_field h.file, get_field h.after, get_field h.before]

theorem host_declares {e : RawEntry RawHost} {d : RawHost} (h : DeclaresHost e d) : e.host = .ok d := by
  cases h with
  | decl => rfl
  | str => rfl
  | dict items d h => exact makeHost_fields h

theorem group_declares {e : RawEntry RawGroup} {d : RawGroup} (h : DeclaresGroup e d) : e.group = .ok d := by
  cases h with
  | decl => rfl
  | str => rfl
  | dict items d h => exact makeGroup_fields h

theorem host_of_entry {r : RawEntry RawHost} {e : Entry HostDecl} (h : HostEntry r e) : r.host = e.host.map HostDecl.raw := by
  cases h with
  | decl => rfl
  | str => rfl
  | dict items d h => exact makeHost_fields h
  | badDict items h =>
    obtain ⟨i, hi, hn⟩ := h
    show makeHost items = _
    rw [makeHost, if_neg fun hall => hn (isHostField.mp (hall i hi))]
    rfl
  | other v h1 h2 =>
    cases v with
    | key k =>
      cases k with
      | str s => exact absurd rfl (h1 s)
      | _ => rfl
    | list => rfl
    | dict items => exact absurd rfl (h2 items)

theorem group_of_entry {r : RawEntry RawGroup} {e : Entry GroupDecl} (h : GroupEntry r e) : r.group = e.group.map GroupDecl.raw := by
  cases h with
  | decl => rfl
  | str => rfl
  | dict items d h => exact makeGroup_fields h
  | badDict items h =>
    obtain ⟨i, hi, hn⟩ := h
    show makeGroup items = _
    rw [makeGroup, if_neg fun hall => hn (isGroupField.mp (hall i hi))]
    rfl
  | noName items h =>
    show makeGroup items = _
    rw [makeGroup, lookup_none_of h]
    split <;> rfl
  | other v h1 h2 =>
    cases v with
    | key k =>
      cases k with
      | str s => exact absurd rfl (h1 s)
      | _ => rfl
    | list => rfl
    | dict items => exact absurd rfl (h2 items)

theorem rawQualify_text (text : PyVal → Str) (s : Str) : rawQualify text (.str s) = .ok (.str (qualifyUrl s)) := by
  show (if hasChar 58 s then Except.ok (PyVal.str s) else _) = _
  rw [qualifyUrl]
  split
  · rfl
  · rfl

theorem rawUrl_text (text : PyVal → Str) (d : HostDecl) : rawUrl text d.raw = .ok (optText (d.url.map qualifyUrl)) := by
  unfold rawUrl HostDecl.raw
  cases d.url with
  | none => rfl
  | some s => exact rawQualify_text text s

theorem hasChar_qualified (s : Str) : hasChar 58 (qualifyUrl s) = true := by
  rw [qualifyUrl]
  split
  · assumption
  · simp [hasChar]

theorem rawHostname_text {s : Str} (h : hasChar 58 s = true) : rawHostname (.str s) = (extractHostname s).map PyVal.str := by
  show (if hasChar 58 s then _ else _) = _
  rw [if_pos h]
  cases extractHostname s <;> rfl

theorem mem_str_keys {δ ε : Type} {f : Str × δ → Key × ε} (hf : ∀ x, (f x).1 = .str x.1) {l : Decls δ} {n : Str} :
    Key.str n ∈ (l.map f).map (·.1) ↔ n ∈ l.map (·.1) := by
  rw [List.map_map, List.mem_map, List.mem_map]
  constructor
  · rintro ⟨x, hx, he⟩
    refine ⟨x, hx, ?_⟩
    have : (f x).1 = .str n := he
    rw [hf] at this
    exact Key.str.inj this
  · rintro ⟨x, hx, rfl⟩
    exact ⟨x, hx, hf x⟩

theorem rawAddHost_eq {text : PyVal → Str} {order : List Key → List Key} {r : RawEntry RawHost} {d : RawHost} {url : PyVal} {n : Str} {groups : List Key}
    (h1 : r.host = .ok d) (h2 : rawUrl text d = .ok url) (h3 : rawName d url = .ok (.str n)) (h4 : d.groups.elements = .ok groups)
    (decls : List (Key × RawHostDecl)) :
    rawAddHost text order decls r = if .str n ∈ decls.map (·.1) then .error (.valueError p!"Duplicate host")
      else .ok (decls ++ [(.str n, { url, name := .str n, file := d.file, groups := order (groups ++ [.str p!"all"]), vars := d.vars })]) := by
  simp only [rawAddHost, h1, h2, h3, h4, bind, Except.bind, PyVal.hash]

theorem addHost_eq {so : SetOrder} {e : Entry HostDecl} {d d' : HostDecl} {n : Str} (h1 : e.host = .ok d) (h2 : nameHost d = .ok (n, d')) (decls : Decls HostDecl) :
    addHost so decls e = if n ∈ decls.map (·.1) then .error (.valueError p!"Duplicate host")
      else .ok (decls ++ [(n, { d' with groups := so.order (d'.groups ++ [p!"all"]) })]) := by
  simp only [addHost, h1, h2, bind, Except.bind]

theorem rawAddHost_entry {text : PyVal → Str} {order : List Key → List Key} {so : SetOrder} (ho : SameOrder order so) {r : RawEntry RawHost}
    {e : Entry HostDecl} (h : HostEntry r e) (decls : Decls HostDecl) :
    rawAddHost text order (decls.map hostResult) r = (addHost so decls e).map (·.map hostResult) := by
  have hr := host_of_entry h
  cases he : e.host with
  | error x =>
    rw [he] at hr
    have hr : r.host = .error x := hr
    simp only [rawAddHost, addHost, hr, he, bind, Except.bind, Except.map]
  | ok d =>
    rw [he] at hr
    have hr : r.host = .ok d.raw := hr
    have hu := rawUrl_text text d
    have hg : d.raw.groups.elements = .ok (d.groups.map .str) := elements_texts d.groups
    have hfin : ∀ (n : Str) (d' : HostDecl), d'.groups = d.groups → d'.file = d.file → d'.vars = d.vars → d'.name = some n → d'.url = d.url.map qualifyUrl →
        rawName d.raw (optText (d.url.map qualifyUrl)) = .ok (.str n) → nameHost d = .ok (n, d') →
        rawAddHost text order (decls.map hostResult) r = (addHost so decls e).map (·.map hostResult) := by
      intro n d' hg' hf hv hn hu' h3 h4
      rw [rawAddHost_eq hr hu h3 hg, addHost_eq he h4]
      have hmem : Key.str n ∈ (decls.map hostResult).map (·.1) ↔ n ∈ decls.map (·.1) := mem_str_keys (fun _ => rfl)
      by_cases hm : n ∈ decls.map (·.1)
      · rw [if_pos hm, if_pos (hmem.mpr hm)]; rfl
      · rw [if_neg hm, if_neg fun h => hm (hmem.mp h)]
        have : order (d.groups.map Key.str ++ [Key.str p!"all"]) = (so.order (d'.groups ++ [p!"all"])).map Key.str := by
          rw [← ho, hg']; simp
        rw [this]
        simp [Except.map, hostResult, hf, hv, hn, hu', HostDecl.raw, optText]
    cases hn : d.name with
    | some n =>
      have h1 : rawName d.raw (optText (d.url.map qualifyUrl)) = .ok (.str n) := by simp [rawName, HostDecl.raw, hn, optText]
      have h2 : nameHost d = .ok (n, { d with url := d.url.map qualifyUrl }) := by simp [nameHost, hn]
      exact hfin n { d with url := d.url.map qualifyUrl } rfl rfl rfl hn rfl h1 h2
    | none =>
      cases hu' : d.url with
      | none =>
        have h1 : rawName d.raw (optText (d.url.map qualifyUrl)) = .error (.valueError p!"Invalid host declaration, must include either a url or a name!") := by
          simp [rawName, HostDecl.raw, hn, optText, hu']
        have h2 : nameHost d = .error (.valueError p!"Invalid host declaration, must include either a url or a name!") := by simp [nameHost, hn, hu']
        simp only [rawAddHost, addHost, hr, he, hu, h1, h2, bind, Except.bind, Except.map]
      | some u =>
        have h1 : rawName d.raw (optText (d.url.map qualifyUrl)) = (extractHostname (qualifyUrl u)).map PyVal.str := by
          rw [← rawHostname_text (hasChar_qualified u)]
          simp [rawName, HostDecl.raw, hn, optText, hu']
        have h2 : nameHost d = (extractHostname (qualifyUrl u)).map fun n => (n, { d with url := some (qualifyUrl u), name := some n }) := by
          simp only [nameHost, hn, hu', Option.map_some]
          cases extractHostname (qualifyUrl u) <;> rfl
        cases hx : extractHostname (qualifyUrl u) with
        | error x =>
          rw [hx] at h1 h2
          simp only [rawAddHost, addHost, hr, he, hu, h1, h2, bind, Except.bind, Except.map]
        | ok n =>
          rw [hx] at h1 h2
          exact hfin n { d with url := some (qualifyUrl u), name := some n } rfl rfl rfl rfl (by rw [hu']; rfl) h1 h2

theorem rawHosts_entries {text : PyVal → Str} {order : List Key → List Key} {so : SetOrder} (ho : SameOrder order so) :
    ∀ {rs : List (RawEntry RawHost)} {es : List (Entry HostDecl)}, Each HostEntry rs es → ∀ decls : Decls HostDecl,
      rawHosts text order rs (decls.map hostResult) = (preprocessHosts so es decls).map (·.map hostResult)
  | _, _, .nil, _ => rfl
  | _, _, .cons (a := r) (b := e) h hs, decls => by
    rw [rawHosts, preprocessHosts, rawAddHost_entry ho h]
    cases addHost so decls e with
    | error x => rfl
    | ok ds => exact rawHosts_entries ho hs ds

theorem rawAddGroup_entry {order : List Key → List Key} {so : SetOrder} (ho : SameOrder order so) {r : RawEntry RawGroup}
    {e : Entry GroupDecl} (h : GroupEntry r e) (decls : Decls GroupDecl) :
    rawAddGroup order (decls.map groupResult) r = (addGroup so decls e).map (·.map groupResult) := by
  have hr := group_of_entry h
  cases he : e.group with
  | error x =>
    rw [he] at hr
    have hr : r.group = .error x := hr
    simp only [rawAddGroup, addGroup, hr, he, bind, Except.bind, Except.map]
  | ok d =>
    rw [he] at hr
    have hr : r.group = .ok d.raw := hr
    have hb : d.raw.before.elements = .ok (d.before.map .str) := elements_texts d.before
    have ha : d.raw.after.elements = .ok (d.after.map .str) := elements_texts d.after
    have hn : d.raw.name.hash = .ok (.str d.name) := rfl
    simp only [rawAddGroup, addGroup, hr, he, hn, hb, ha, bind, Except.bind]
    have hmem : Key.str d.name ∈ (decls.map groupResult).map (·.1) ↔ d.name ∈ decls.map (·.1) := mem_str_keys (fun _ => rfl)
    by_cases hm : d.name ∈ decls.map (·.1)
    · rw [if_pos hm, if_pos (hmem.mpr hm)]; rfl
    · rw [if_neg hm, if_neg fun h => hm (hmem.mp h)]
      have h1 : order (d.after.map Key.str ++ if Key.str d.name ≠ .str p!"all" then [.str p!"all"] else [])
          = (so.order (d.after ++ if d.name ≠ p!"all" then [p!"all"] else [])).map Key.str := by
        rw [← ho]
        by_cases ha : d.name = p!"all"
        · simp [ha]
        · simp [ha]
      rw [h1, ho]
      simp [Except.map, groupResult, GroupDecl.raw]

theorem rawAddGroups_entries {order : List Key → List Key} {so : SetOrder} (ho : SameOrder order so) :
    ∀ {rs : List (RawEntry RawGroup)} {es : List (Entry GroupDecl)}, Each GroupEntry rs es → ∀ decls : Decls GroupDecl,
      rawAddGroups order rs (decls.map groupResult) = (addGroups so es decls).map (·.map groupResult)
  | _, _, .nil, _ => rfl
  | _, _, .cons (a := r) (b := e) h hs, decls => by
    rw [rawAddGroups, addGroups, rawAddGroup_entry ho h]
    cases addGroup so decls e with
    | error x => rfl
    | ok ds => exact rawAddGroups_entries ho hs ds

theorem rawSetItem_result (k : Str) (v : GroupDecl) : ∀ l : Decls GroupDecl,
    rawSetItem (.str k) (groupResult (k, v)).2 (l.map groupResult) = (setItem k v l).map groupResult
  | [] => rfl
  | (a, b) :: l => by
    rw [List.map_cons, setItem]
    show rawSetItem _ _ ((Key.str a, _) :: _) = _
    rw [rawSetItem]
    by_cases h : a = k
    · subst h; simp [groupResult]
    · rw [if_neg h, if_neg fun h' => h (Key.str.inj h'), rawSetItem_result k v l]; rfl

theorem rawAddBuiltin_result (l : Decls GroupDecl) : rawAddBuiltin (l.map groupResult) = (addBuiltin l).map groupResult := by
  unfold rawAddBuiltin addBuiltin
  have h := rawSetItem_result p!"early-explicits" { name := p!"early-explicits" } l
  have h' : rawSetItem (.str p!"early-explicits") { name := .str p!"early-explicits" } (l.map groupResult)
      = (setItem p!"early-explicits" { name := p!"early-explicits" } l).map groupResult := h
  dsimp only
  rw [h']
  have hmem := mem_str_keys (f := groupResult) (fun _ => rfl) (l := setItem p!"early-explicits" { name := p!"early-explicits" } l) (n := p!"all")
  by_cases hm : p!"all" ∈ (setItem p!"early-explicits" ({ name := p!"early-explicits" } : GroupDecl) l).map (·.1)
  · rw [if_pos hm, if_pos (hmem.mpr hm)]
  · rw [if_neg hm, if_neg fun h => hm (hmem.mp h)]
    simp [groupResult, optText]

theorem each_val_str : ∀ l : List Str, Each GroupEntry (l.map fun s => .val (.str s)) (l.map Entry.str)
  | [] => .nil
  | s :: l => .cons (.str s) (each_val_str l)

theorem rawPreprocess_entries {text : PyVal → Str} {order : List Key → List Key} {so : SetOrder} (ho : SameOrder order so)
    {rs : List (RawEntry RawHost)} {es : List (Entry HostDecl)} (h : Each HostEntry rs es) {rgs : RawGroups} {gs : Option (List (Entry GroupDecl))}
    (hg : GroupEntries rgs gs) :
    rawPreprocess text order rs rgs = (do
      let hs ← preprocessHosts so es []
      let ds ← preprocessGroups so gs hs
      .ok (hs.map hostResult, ds.map groupResult)) := by
  unfold rawPreprocess
  rw [show rawHosts text order rs [] = _ from rawHosts_entries ho h []]
  cases preprocessHosts so es [] with
  | error x => rfl
  | ok hs =>
    have hd : ∃ raws, rawDeclaredGroups order rgs (hs.map hostResult) = .ok raws ∧ Each GroupEntry raws (declaredGroups so gs hs) := by
      cases hg with
      | absent =>
        refine ⟨_, rfl, ?_⟩
        have h1 : (hs.map hostResult).flatMap (fun h => h.2.groups) = (hs.flatMap fun h => h.2.groups).map Key.str := by
          rw [List.flatMap_map, List.map_flatMap]; rfl
        rw [h1, ho, List.map_map]
        exact each_val_str _
      | list raws es h => exact ⟨raws, rfl, h⟩
    obtain ⟨raws, h1, h2⟩ := hd
    show (do
      let gs ← rawDeclaredGroups order rgs (hs.map hostResult)
      let gs ← rawAddGroups order gs []
      .ok (hs.map hostResult, rawAddBuiltin gs) : Except Exn _) = (do
      let ds ← preprocessGroups so gs hs
      .ok (hs.map hostResult, ds.map groupResult))
    rw [h1]
    show (do
      let gs ← rawAddGroups order raws []
      .ok (hs.map hostResult, rawAddBuiltin gs) : Except Exn _) = _
    rw [show rawAddGroups order raws [] = _ from rawAddGroups_entries ho h2 [], preprocessGroups]
    cases addGroups so (declaredGroups so gs hs) [] with
    | error x => rfl
    | ok ds =>
      show Except.ok (_, rawAddBuiltin (ds.map groupResult)) = _
      rw [rawAddBuiltin_result]
      rfl

/-! ### Rejections -/

theorem rawQualify_error {text : PyVal → Str} {url : PyVal} (h : NotEnumerable url) : rawQualify text url = .error .typeError := by
  obtain ⟨k, rfl, hk⟩ := h
  cases k with
  | str s => exact absurd rfl (hk s)
  | _ => rfl

/-- The exceptions with which declarations are rejected. -/
def Rejects {α : Type} (x : Except Exn α) : Prop := ∃ e, x = .error e ∧ (e.isValueError = true ∨ e = .typeError ∨ e = .attributeError)

theorem Rejects.bind {α β : Type} {x : Except Exn α} {f : α → Except Exn β} (hx : (∃ a, x = .ok a) ∨ Rejects x) (hf : ∀ a, Rejects (f a)) : Rejects (x >>= f) := by
  rcases hx with ⟨a, rfl⟩ | ⟨e, rfl, he⟩
  · exact hf a
  · exact ⟨e, rfl, he⟩

theorem Rejects.first {α β : Type} {x : Except Exn α} {f : α → Except Exn β} (hx : Rejects x) : Rejects (x >>= f) := by
  obtain ⟨e, rfl, he⟩ := hx
  exact ⟨e, rfl, he⟩

theorem hasColon_cases (url : PyVal) : (∃ b, url.hasColon = .ok b) ∨ Rejects url.hasColon := by
  cases url with
  | key k =>
    cases k with
    | str s => exact .inl ⟨_, rfl⟩
    | _ => exact .inr ⟨_, rfl, .inr (.inl rfl)⟩
  | list => exact .inl ⟨_, rfl⟩
  | dict => exact .inl ⟨_, rfl⟩

theorem rawQualify_cases (text : PyVal → Str) (url : PyVal) : (∃ v, rawQualify text url = .ok v) ∨ Rejects (rawQualify text url) := by
  rcases hasColon_cases url with ⟨b, hb⟩ | ⟨e, he, h⟩
  · left
    simp only [rawQualify, hb, bind, Except.bind]
    cases b
    · exact ⟨_, rfl⟩
    · exact ⟨_, rfl⟩
  · right
    exact ⟨e, by simp only [rawQualify, he, bind, Except.bind], h⟩

theorem rawUrl_cases (text : PyVal → Str) (d : RawHost) : (∃ v, rawUrl text d = .ok v) ∨ Rejects (rawUrl text d) := by
  unfold rawUrl
  split
  · exact .inl ⟨_, rfl⟩
  · exact rawQualify_cases _ _

theorem extractHostname_cases (s : Str) : (∃ v, extractHostname s = .ok v) ∨ ∃ m, extractHostname s = .error (.valueError m) := by
  unfold extractHostname
  split
  · split
    · exact .inr ⟨_, rfl⟩
    · unfold sshHostname
      split
      · exact .inl ⟨_, rfl⟩
      · exact .inr ⟨_, rfl⟩
    · unfold localHostname
      split
      · exact .inl ⟨_, rfl⟩
      · exact .inr ⟨_, rfl⟩
  · exact .inr ⟨_, rfl⟩

theorem rawHostname_cases (url : PyVal) : (∃ v, rawHostname url = .ok v) ∨ Rejects (rawHostname url) := by
  rcases hasColon_cases url with ⟨b, hb⟩ | ⟨e, he, h⟩
  · simp only [rawHostname, hb, bind, Except.bind]
    cases b with
    | false => exact .inr ⟨_, rfl, .inl rfl⟩
    | true =>
      rw [if_pos rfl]
      split
      · next s =>
        rcases extractHostname_cases s with ⟨v, hv⟩ | ⟨m, hm⟩
        · rw [hv]; exact .inl ⟨_, rfl⟩
        · rw [hm]; exact .inr ⟨_, rfl, .inl rfl⟩
      · exact .inr ⟨_, rfl, .inr (.inr rfl)⟩
  · right
    exact ⟨e, by simp only [rawHostname, he, bind, Except.bind], h⟩

theorem rawName_cases (d : RawHost) (url : PyVal) : (∃ v, rawName d url = .ok v) ∨ Rejects (rawName d url) := by
  unfold rawName
  split
  · split
    · exact .inr ⟨_, rfl, .inl rfl⟩
    · exact rawHostname_cases _
  · exact .inl ⟨_, rfl⟩

theorem hashAll_cases : ∀ l : List PyVal, (∃ ks, PyVal.hashAll l = .ok ks) ∨ Rejects (PyVal.hashAll l)
  | [] => .inl ⟨_, rfl⟩
  | v :: l => by
    rw [PyVal.hashAll]
    cases v with
    | key k =>
      rcases hashAll_cases l with ⟨ks, h⟩ | ⟨e, h, he⟩
      · rw [h]; exact .inl ⟨_, rfl⟩
      · rw [h]; exact .inr ⟨e, rfl, he⟩
    | list => exact .inr ⟨_, rfl, .inr (.inl rfl)⟩
    | dict => exact .inr ⟨_, rfl, .inr (.inl rfl)⟩

theorem elements_cases (v : PyVal) : (∃ ks, v.elements = .ok ks) ∨ Rejects v.elements := by
  cases v with
  | key k =>
    cases k with
    | str => exact .inl ⟨_, rfl⟩
    | _ => exact .inr ⟨_, rfl, .inr (.inl rfl)⟩
  | list l => exact hashAll_cases l
  | dict => exact .inl ⟨_, rfl⟩

theorem hash_cases (v : PyVal) : (∃ k, v.hash = .ok k) ∨ Rejects v.hash := by
  cases v with
  | key k => exact .inl ⟨_, rfl⟩
  | list => exact .inr ⟨_, rfl, .inr (.inl rfl)⟩
  | dict => exact .inr ⟨_, rfl, .inr (.inl rfl)⟩

theorem host_kind {v : PyVal} (h1 : ∀ s, v ≠ .str s) (h2 : ∀ items, v ≠ .dict items) :
    (RawEntry.val v : RawEntry RawHost).host = .error (.valueError p!"Invalid host declaration") := by
  cases v with
  | key k =>
    cases k with
    | str s => exact absurd rfl (h1 s)
    | _ => rfl
  | list => rfl
  | dict items => exact absurd rfl (h2 items)

theorem group_kind {v : PyVal} (h1 : ∀ s, v ≠ .str s) (h2 : ∀ items, v ≠ .dict items) :
    (RawEntry.val v : RawEntry RawGroup).group = .error (.valueError p!"Invalid group declaration") := by
  cases v with
  | key k =>
    cases k with
    | str s => exact absurd rfl (h1 s)
    | _ => rfl
  | list => rfl
  | dict items => exact absurd rfl (h2 items)

theorem rawAddHost_malformed {text : PyVal → Str} {order : List Key → List Key} {e : RawEntry RawHost} (h : MalformedHost e)
    (decls : List (Key × RawHostDecl)) : Rejects (rawAddHost text order decls e) := by
  unfold rawAddHost
  cases h with
  | kind v h1 h2 =>
    rw [host_kind h1 h2]
    exact ⟨_, rfl, .inl rfl⟩
  | field items k v hm hk =>
    have : (RawEntry.val (.dict items) : RawEntry RawHost).host = .error .typeError := by
      show makeHost items = _
      rw [makeHost, if_neg fun hall => hk (isHostField.mp (hall _ hm))]
    rw [this]
    exact ⟨_, rfl, .inr (.inl rfl)⟩
  | fields e d he hd =>
    rw [host_declares he]
    show Rejects (rawUrl text d >>= _)
    rcases hd with ⟨hu, hn⟩ | ⟨hu, hn⟩ | hn | hg
    · refine .first ⟨.typeError, ?_, .inr (.inl rfl)⟩
      rw [← rawQualify_error (text := text) hu]
      unfold rawUrl
      split
      · next h => exact absurd h hn
      · rfl
    · have h1 : rawUrl text d = .ok .none := by simp [rawUrl, hu]
      rw [h1]
      have h2 : rawName d .none = .error (.valueError p!"Invalid host declaration, must include either a url or a name!") := by
        simp [rawName, hn]
      show Rejects (rawName d .none >>= _)
      rw [h2]
      exact ⟨_, rfl, .inl rfl⟩
    · refine .bind (rawUrl_cases _ _) fun url => ?_
      have h1 : rawName d url = .ok d.name := by
        unfold rawName
        split
        · next h => exact absurd h (hn _)
        · rfl
      rw [h1]
      show Rejects (d.groups.elements >>= _)
      exact .bind (elements_cases _) fun _ => .first ⟨_, hash_error hn, .inr (.inl rfl)⟩
    · exact .bind (rawUrl_cases _ _) fun url => .bind (rawName_cases _ _) fun _ => .first ⟨_, elements_error hg, .inr (.inl rfl)⟩

theorem rawAddGroup_malformed {order : List Key → List Key} {e : RawEntry RawGroup} (h : MalformedGroup e)
    (decls : List (Key × RawGroupDecl)) : Rejects (rawAddGroup order decls e) := by
  unfold rawAddGroup
  cases h with
  | kind v h1 h2 =>
    rw [group_kind h1 h2]
    exact ⟨_, rfl, .inl rfl⟩
  | field items k v hm hk =>
    have : (RawEntry.val (.dict items) : RawEntry RawGroup).group = .error .typeError := by
      show makeGroup items = _
      rw [makeGroup, if_neg fun hall => hk (isGroupField.mp (hall _ hm))]
    rw [this]
    exact ⟨_, rfl, .inr (.inl rfl)⟩
  | noName items hn =>
    have : (RawEntry.val (.dict items) : RawEntry RawGroup).group = .error .typeError := by
      show makeGroup items = _
      rw [makeGroup, lookup_none_of hn]
      split <;> rfl
    rw [this]
    exact ⟨_, rfl, .inr (.inl rfl)⟩
  | name e d he hn =>
    rw [group_declares he]
    show Rejects (d.name.hash >>= _)
    exact .first ⟨_, hash_error hn, .inr (.inl rfl)⟩
  | relations e d v he hv hb =>
    rw [group_declares he]
    show Rejects (d.name.hash >>= _)
    refine .bind (hash_cases _) fun name => ?_
    split
    · exact ⟨_, rfl, .inl rfl⟩
    · rcases hv with rfl | rfl
      · exact .first ⟨_, elements_error hb, .inr (.inl rfl)⟩
      · exact .bind (elements_cases _) fun _ => .first ⟨_, elements_error hb, .inr (.inl rfl)⟩

end Verif.Inventory
