/-
C113: the overview of an inventory.
-/
import Verif.Inventory.OverviewSpec
import Verif.Inventory.GroupProps
import Verif.Inventory.LoadProps
import Verif.Inventory.ConflictProps

namespace Verif.Inventory

open Run

theorem setItem_new {δ : Type} {k : Str} {v : δ} : ∀ {l : Decls δ}, k ∉ l.map (·.1) → setItem k v l = l ++ [(k, v)]
  | [], _ => rfl
  | (a, b) :: l, h => by
    simp only [List.map_cons, List.mem_cons, not_or] at h
    rw [setItem, if_neg (fun e => h.1 e.symm), setItem_new h.2]
    rfl

theorem comprehension_from : ∀ (l : List (Str × Cell)) (d : Decls Cell), (d.map (·.1) ++ l.map (·.1)).Nodup →
    l.foldl (fun d x => setItem x.1 x.2 d) d = d ++ l
  | [], d, _ => by simp
  | x :: l, d, h => by
    have hx : x.1 ∉ d.map (·.1) := by
      intro hm
      rw [List.nodup_append] at h
      exact h.2.2 _ hm _ (by simp) rfl
    rw [List.foldl_cons, setItem_new hx, comprehension_from l _ (by simpa using h)]
    simp

theorem comprehension_nodup {l : List (Str × Cell)} (h : (l.map (·.1)).Nodup) : comprehension l = l := by
  unfold comprehension
  rw [comprehension_from l [] (by simpa using h)]
  rfl

theorem visible_plain {s : Str} (h : isAnsi s = false) : visible [s] = s := by simp [visible, h]

theorem visible_drop {a : Str} (h : visible [a] = []) (r : Cell) : visible (a :: r) = visible r := by rw [visible_cons, h]; rfl

theorem visible_keep (s : Str) (h : isAnsi s = false) (r : Cell) : visible (s :: r) = s ++ visible r := by rw [visible_cons, visible_plain h]

theorem visible_groupLines {c : Colours} (hc : c.Hidden) {order : List Str} (hn : order.Nodup) (ha : ∀ g ∈ order, isAnsi g = false) :
    (groupLines c order).map visible = order.zipIdx.map fun p => groupText p.2 p.1 := by
  unfold groupLines
  rw [comprehension_nodup, List.map_map, List.map_map]
  · apply List.map_congr_left
    rintro ⟨g, n⟩ hg
    have hg : g ∈ order := by
      have := List.mem_map_of_mem (f := Prod.fst) hg
      rwa [List.zipIdx_map_fst] at this
    have h1 : isAnsi (p!"- (" ++ Py.natStr 10 n ++ p!")") = false := rfl
    simp only [Function.comp]
    rw [visible_keep p!"  " rfl, visible_drop hc.darker, visible_keep _ h1, visible_drop hc.reset, visible_keep p!" " rfl, visible_coloured hc.yellow (ha g hg) hc.reset]
    simp [groupText]
  · rw [List.map_map]
    have : ((fun x : Str × Cell => x.1) ∘ fun p : Str × Nat => (p.1, [c.darker, p!"- (" ++ Py.natStr 10 p.2 ++ p!")", c.reset, p!" ", c.yellow, p.1, c.reset])) = Prod.fst := rfl
    rw [this, List.zipIdx_map_fst]
    exact hn

theorem visible_hostLines {c : Colours} (hc : c.Hidden) (t : Texts) {hosts : List (Str × Host)} (hn : (hosts.map (·.1)).Nodup) (ha : ∀ h ∈ hosts, isAnsi h.1 = false) :
    (hostLines c t hosts).map visible = hosts.map (hostText t) := by
  unfold hostLines
  rw [comprehension_nodup, List.map_map, List.map_map]
  · apply List.map_congr_left
    rintro ⟨n, h⟩ hh
    have h1 : isAnsi (p!"(" ++ t.url h ++ p!", " ++ t.hostPlace h ++ p!")") = false := rfl
    simp only [Function.comp]
    rw [visible_keep p!"  " rfl, visible_drop hc.darker, visible_keep p!"-" rfl, visible_drop hc.reset, visible_keep p!" " rfl, visible_drop hc.green,
      visible_keep n (ha _ hh), visible_drop hc.reset, visible_keep p!" " rfl, visible_coloured hc.darker h1 hc.reset]
    simp [hostText]
  · rw [List.map_map]
    exact hn

theorem visible_globalLines {c : Colours} (hc : c.Hidden) (t : Texts) {vars : Vars} (ha : ∀ kv ∈ vars.items, isAnsi kv.1 = false) :
    (globalLines c t vars).map visible = if vars.items = [] then [] else p!"variables" :: vars.items.map (globalText t) := by
  unfold globalLines
  by_cases h : vars.items = []
  · simp [h]
  · have h0 : vars.items.length > 0 := List.length_pos_iff.mpr h
    rw [if_pos h0, if_neg h, List.map_cons, List.map_map, visible_coloured hc.blue rfl hc.reset]
    congr 1
    apply List.map_congr_left
    rintro ⟨a, v⟩ hv
    have h1 : isAnsi (p!"\t(type " ++ t.globalType v ++ p!") = " ++ t.globalValue v) = false := rfl
    simp only [Function.comp]
    rw [visible_cons, visible_cons a, visible_cons c.reset, hc.green, hc.reset, visible_plain (ha _ hv), visible_plain h1]
    simp [globalText]

theorem visible_fullWidth (terminal : Nat) (left right : Cell) : visible (fullWidth terminal left right) = headingText terminal (visible left) (visible right) := by
  unfold fullWidth headingText
  rw [visible_append, visible_append, visible_replicate (by decide), ansilen_eq, ansilen_eq]
  unfold lineWidth
  congr 3
  omega

theorem visible_hostSections {so : SetOrder} {src : Sources} {consts : Str → Consts} {es : List (Entry HostDecl)} {groups : Option (List (Entry GroupDecl))} {d : Declared}
    (terminal : Nat) {c bold : Colours} (hc : c.Hidden) (hb : bold.Hidden) (t : Texts) : ∀ {hosts : List (Str × Host)},
      (∀ h ∈ hosts, ∃ decl, LoadedHost so src (consts h.1) es groups d h.1 decl h.2) →
      ∃ lines, hostSections terminal c bold t d.order.order hosts = .ok lines
        ∧ ((∀ h ∈ hosts, isAnsi h.1 = false) → (∀ h ∈ hosts, ∀ rows, inspectHost d.order.order h.1 h.2 = .ok rows → ∀ r ∈ rows, r.Plain t.varColour t.typeName t.valueColour t.valueText) →
          ∃ sections, Each (Section terminal t d.order.order) hosts sections ∧ lines.map visible = sections.flatten)
  | [], _ => ⟨[], rfl, fun _ _ => ⟨[], .nil, rfl⟩⟩
  | (name, h) :: hs, hl => by
    obtain ⟨rest, h1, h2⟩ := visible_hostSections terminal hc hb t (hosts := hs) fun x hx => hl x (by simp [hx])
    obtain ⟨decl, hld⟩ := hl (name, h) (by simp)
    obtain ⟨rows, table, w₁, w₂, w₃, w₄, h3, h4, h5, h6, h7⟩ := C86_inspection hld terminal hc t.varColour t.typeName t.valueColour t.valueText
    refine ⟨_, by simp only [hostSections, h4, h1, bind, Except.bind]; rfl, fun ha hr => ?_⟩
    obtain ⟨sections, h8, h9⟩ := h2 (fun x hx => ha x (by simp [hx])) fun x hx => hr x (by simp [hx])
    refine ⟨_ :: sections, .cons ⟨rows, w₁, w₂, w₃, w₄, h3, h5, h6, rfl⟩ h8, ?_⟩
    have hp : isAnsi (p!" " ++ t.hostPlace h) = false := rfl
    rw [List.map_append, List.map_cons, List.map_cons, h9, h7 (hr (name, h) (by simp) rows h3), visible_fullWidth, visible_coloured hc.darker hp hc.reset,
      visible_keep p!"──────── " rfl, visible_drop hb.yellow, visible_keep p!"host" rfl, visible_drop hc.reset, visible_keep p!" " rfl, visible_drop hb.green,
      visible_keep name (ha (name, h) (by simp)), visible_drop hc.reset, visible_plain (s := p!" ") rfl]
    have hv : visible [] = [] := rfl
    have e : p!"──────── " ++ (p!"host" ++ (p!" " ++ (name ++ p!" "))) = p!"──────── host " ++ name ++ p!" " := by simp
    rw [hv, e]
    simp

theorem each_mem {α β : Type} {R : α → β → Prop} : ∀ {l : List α} {r : List β}, Each R l r → ∀ b ∈ r, ∃ a ∈ l, R a b
  | _, _, .cons h t, b, hb => by
    rcases List.mem_cons.mp hb with rfl | hb
    · exact ⟨_, by simp, h⟩
    · obtain ⟨a, ha, hr⟩ := each_mem t b hb
      exact ⟨a, by simp [ha], hr⟩

theorem each_through {α β γ : Type} {R : α → β → Prop} {S : β → γ → Prop} {T : α → γ → Prop} (h : ∀ a b c, R a b → S b c → T a c) :
    ∀ {l : List α} {m : List β} {r : List γ}, Each R l m → Each S m r → Each T l r
  | _, _, _, .nil, .nil => .nil
  | _, _, _, .cons a as, .cons b bs => .cons (h _ _ _ a b) (each_through h as bs)

theorem each_keys {δ ε : Type} {R : Str × δ → Str × ε → Prop} (hR : ∀ a b, R a b → a.1 = b.1) : ∀ {l : List (Str × δ)} {r : List (Str × ε)}, Each R l r → r.map (·.1) = l.map (·.1)
  | _, _, .nil => rfl
  | _, _, .cons h t => by rw [List.map_cons, List.map_cons, each_keys hR t, hR _ _ h]

/-- C113: every inventory that can be loaded can be inspected, on every terminal. The screen shows a heading with the argument of the program;
all groups, numbered from 0 in the order in which they are loaded; all hosts in the order of their declarations, with url and module; the
variables of the inventory, if there are any; and for every host a heading and the table of its variables. There is nothing else. The
numbers are those that the tables give for the origins of variables. -/
theorem C113_overview {so : SetOrder} {src : Sources} {consts : Str → Consts} {heap heap' : Heap} {es : List (Entry HostDecl)} {groups : Option (List (Entry GroupDecl))}
    {hosts : List (Str × Host)} (hload : Yields (fun fuel => load fuel so src consts heap es groups) (.ok (heap', hosts))) (terminal : Nat) {c bold : Colours}
    (hc : c.Hidden) (hb : bold.Hidden) (t : Texts) :
    ∃ d lines, Yields (fun fuel => declare fuel so es groups) (.ok d)
      ∧ showInventory terminal c bold t d.order.order hosts src.inventory.exported = .ok lines
      ∧ Each (fun e h => ∃ gs, Names e h.1 gs) es hosts
      ∧ (t.Readable d.order.order hosts src.inventory.exported → ∃ sections, Each (Section terminal t d.order.order) hosts sections
        ∧ lines.map visible =
          [headingText terminal (p!"──────── inventory " ++ t.inventory ++ p!" ") (p!" " ++ t.place)]
          ++ p!"groups (precedence, low to high)" :: (d.order.order.zipIdx.map fun p => groupText p.2 p.1)
          ++ p!"hosts (url, module)" :: hosts.map (hostText t)
          ++ (if src.inventory.exported.items = [] then [] else p!"variables" :: src.inventory.exported.items.map (globalText t))
          ++ sections.flatten) := by
  obtain ⟨res, hres, hspec⟩ := declare_spec so es groups
  have hl : ∃ m, declare m so es groups = some res ∧ load m so src consts heap es groups = some (.ok (heap', hosts)) := by
    obtain ⟨n, h1⟩ := hres
    obtain ⟨m, h2⟩ := hload
    exact ⟨max n m, h1 _ (Nat.le_max_left _ _), h2 _ (Nat.le_max_right _ _)⟩
  obtain ⟨m, h1, h2⟩ := hl
  simp only [load, h1, Option.map_some, Option.some.injEq] at h2
  cases res with
  | error e => cases h2
  | ok d =>
    have h2 : instanciateHosts src consts d heap d.hosts = .ok (heap', hosts) := h2
    obtain ⟨ds, _, _, hda⟩ := hspec
    have h3 := instanciateHosts_mem h2
    have hkeys : hosts.map (·.1) = d.hosts.map (·.1) := each_keys (fun a b h => h.1) h3
    have hloaded : ∀ h ∈ hosts, ∃ decl, LoadedHost so src (consts h.1) es groups d h.1 decl h.2 := by
      intro h hh
      obtain ⟨⟨n, decl⟩, hm, hn, heap, heap', hi⟩ := each_mem h3 h hh
      simp only at hn
      subst hn
      exact ⟨decl, hres, hm, heap, heap', hi⟩
    obtain ⟨rest, h4, h5⟩ := visible_hostSections terminal hc hb t hloaded
    refine ⟨d, _, hres, by simp only [showInventory, h4, bind, Except.bind]; rfl, ?_, fun hr => ?_⟩
    · have h6 := (C57_names so es groups d hres).2.2.1
      exact each_through (fun _ _ _ ⟨gs, hg, _⟩ hb => ⟨gs, hb.1 ▸ hg⟩) h6 h3
    · obtain ⟨sections, h6, h7⟩ := h5 hr.hostNames hr.rows
      refine ⟨sections, h6, ?_⟩
      have hp : isAnsi (p!" " ++ t.place) = false := rfl
      have hn : d.order.order.Nodup := hda.order.perm.nodup_iff.mpr hda.nodup
      have e1 : visible [c.blue, p!"groups", c.reset, p!" ", c.darker, p!"(precedence, low to high)", c.reset] = p!"groups (precedence, low to high)" := by
        rw [visible_drop hc.blue, visible_keep p!"groups" rfl, visible_drop hc.reset, visible_keep p!" " rfl, visible_coloured hc.darker rfl hc.reset]
        rfl
      have e2 : visible [c.blue, p!"hosts", c.reset, p!" ", c.darker, p!"(url, module)", c.reset] = p!"hosts (url, module)" := by
        rw [visible_drop hc.blue, visible_keep p!"hosts" rfl, visible_drop hc.reset, visible_keep p!" " rfl, visible_coloured hc.darker rfl hc.reset]
        rfl
      have e3 : visible [p!"──────── ", bold.yellow, p!"inventory", c.reset, p!" ", bold.darker, t.inventory, c.reset, p!" "] = p!"──────── inventory " ++ t.inventory ++ p!" " := by
        rw [visible_keep p!"──────── " rfl, visible_drop hb.yellow, visible_keep p!"inventory" rfl, visible_drop hc.reset, visible_keep p!" " rfl, visible_drop hb.darker,
          visible_keep t.inventory hr.inventory, visible_drop hc.reset, visible_plain (s := p!" ") rfl]
        simp
      simp only [List.map_append, List.map_cons, h7, visible_groupLines hc hn hr.groups, visible_hostLines hc t (hkeys ▸ hda.hostNames) hr.hostNames,
        visible_globalLines hc t hr.variables, visible_fullWidth, e1, e2, e3, visible_coloured hc.darker hp hc.reset]
      simp

/-- C113: the list of groups has every group once, and a group that has to be loaded before another one is above it. -/
theorem C113_groups {so : SetOrder} {es : List (Entry HostDecl)} {groups : Option (List (Entry GroupDecl))} {d : Declared}
    (hd : Yields (fun fuel => declare fuel so es groups) (.ok d)) :
    ∃ ds, DeclaresGroups es groups ds ∧ d.order.order.Nodup ∧ (∀ g, g ∈ d.order.order ↔ GroupName ds g)
      ∧ ∀ a b, MustPrecede ds a b → InOrder d.order.order a b := by
  obtain ⟨res, hres, hspec⟩ := declare_spec so es groups
  have : res = .ok d := by
    obtain ⟨n, h1⟩ := hres
    obtain ⟨m, h2⟩ := hd
    have h3 := h1 (max n m) (Nat.le_max_left _ _)
    have h4 := h2 (max n m) (Nat.le_max_right _ _)
    exact Option.some.inj (h3.symm.trans h4)
  subst this
  obtain ⟨ds, hds, _, hda⟩ := hspec
  have hperm := hda.order.perm
  refine ⟨ds, hds, hperm.nodup_iff.mpr hda.nodup, fun g => by rw [hperm.mem_iff, hda.names], fun a b hab => ?_⟩
  obtain ⟨ha, hb⟩ := hda.valid.known a b hab
  refine inOrder_of_pairwise hda.order.sorted (by rw [hperm.mem_iff, hda.names]; exact ha) (by rw [hperm.mem_iff, hda.names]; exact hb) ?_
  obtain ⟨n, h1, ⟨x, hx⟩, _⟩ := hda.order.min a ha
  obtain ⟨m, h3, _, hmax⟩ := hda.order.min b hb
  have := hmax x _ (.step hx hab)
  omega

namespace Example

/-- The texts that are shown for the examples of C85. -/
def texts : Texts where
  inventory := p!"inventory.py"
  place := p!"inventory.py"
  url _ := p!"ssh://web"
  hostPlace _ := p!"None"
  globalType _ := p!"<class 'int'>"
  globalValue _ := p!"22"
  varColour _ := colours.green
  typeName _ := p!"int"
  valueColour _ := colours.yellow
  valueText _ := p!"1"

/-- What the screen shows. -/
def screen (n : Nat) (src : Sources) (es : List (Entry HostDecl)) (groups : Option (List (Entry GroupDecl))) : Option (List Str) :=
  match declare n setOrder es groups, load n setOrder src consts (fun n => n) es groups with
  | some (.ok d), some (.ok (_, hosts)) => (showInventory 80 colours colours texts d.order.order hosts src.inventory.exported).toOption.map (·.map visible)
  | _, _ => none

/-- One host, in the group `a`, whose module and that of `all` set the variable `x`. -/
example : (screen 6 twoModules [.dict (some twoDecl)] none).map (fun l => l.take 13 ++ l.drop 25) = some
    [p!"──────── inventory inventory.py ─────────────────────────────────── inventory.py",
      p!"groups (precedence, low to high)", p!"  - (0) all", p!"  - (1) early-explicits", p!"  - (2) a", p!"hosts (url, module)",
      p!"  - web (ssh://web, None)", p!"variables", p!"domain\t(type <class 'int'>) = 22", p!"",
      p!"──────── host web ───────────────────────────────────────────────────────── None",
      p!"variable                 │ type │ (prec) defined by   │ value",
      p!"─────────────────────────┼──────┼─────────────────────┼──────",
      p!"x                        │ int  │ (0) all, (2) a      │ 1    "] := by decide +kernel

/-- It can be loaded. -/
example : ∃ heap' hosts, Yields (fun fuel => load fuel setOrder twoModules consts (fun n => n) [.dict (some twoDecl)] none) (.ok (heap', hosts)) := by
  have h6 : (load 6 setOrder twoModules consts (fun n => n) [.dict (some twoDecl)] none).map (·.toOption.isSome) = some true := by decide +kernel
  cases hl : load 6 setOrder twoModules consts (fun n => n) [.dict (some twoDecl)] none with
  | none => rw [hl] at h6; cases h6
  | some r => cases r with
    | error e => rw [hl] at h6; cases h6
    | ok r => exact ⟨r.1, r.2, load_mono hl⟩

end Example

end Verif.Inventory
