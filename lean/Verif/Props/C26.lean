/-
C26 — re-loading dictionaries: what depends on history.  C27 — category attributes of a tag.
-/
import Verif.Props.C25

namespace Verif

theorem expand_init (c : TagCls) (rows : List GramRow) : (c.init rows).extraPlur = c.extraPlur ∪ c.extraPlur.biUnion (kids rows) := by
  unfold TagCls.init
  rw [(fillRows_tables _ _ _).2.2.2]
  unfold TagCls.expandExtra TagCls.initKnown
  have : ∀ (rows : List GramRow) (c : TagCls), (rows.foldl (fun c r => c.addKnown r.name r.alias_) c).extraPlur = c.extraPlur := by
    intro rows
    induction rows with
    | nil => intro c; rfl
    | cons r rows ih => intro c; rw [List.foldl_cons, ih, addKnown_true]
  simp only [this]

/-- The entry of a table that decides about a grammeme: the last one with its name. -/
def lastRow (rows : List GramRow) (g : Str) : Option (GramRow × Nat) := rows.zipIdx.reverse.find? fun e => e.1.name = g

theorem fillRows_spec (rows : List GramRow) (l : List (GramRow × Nat)) (c : TagCls) (g : Str) :
    (TagCls.fillRows rows l c).incompat g = (match l.reverse.find? fun e => e.1.name = g with
      | some e => incompatRow c.extraPlur rows e.1
      | none => c.incompat g) ∧
    (TagCls.fillRows rows l c).indices g = (match l.reverse.find? fun e => e.1.name = g with
      | some e => e.2
      | none => c.indices g) := by
  induction l generalizing c with
  | nil => exact ⟨rfl, rfl⟩
  | cons r l ih =>
    obtain ⟨r, i⟩ := r
    rw [TagCls.fillRows]
    obtain ⟨h1, h2⟩ := ih { c with
      indices := fun g => if g = r.name then i else c.indices g
      incompat := fun g => if g = r.name then incompatRow c.extraPlur rows r else c.incompat g }
    rw [h1, h2, List.reverse_cons, List.find?_append]
    cases hf : l.reverse.find? fun e => e.1.name = g with
    | some e => exact ⟨rfl, rfl⟩
    | none =>
      simp only [Option.none_or, List.find?_cons]
      by_cases hg : r.name = g
      · subst hg; simp
      · simp [hg, Ne.symm hg]

theorem init_incompat (c : TagCls) (rows : List GramRow) (g : Str) :
    (c.init rows).incompat g = (match lastRow rows g with
      | some e => incompatRow (c.init rows).extraPlur rows e.1
      | none => c.incompat g) ∧
    (c.init rows).indices g = (match lastRow rows g with
      | some e => e.2
      | none => c.indices g) := by
  have h := fillRows_spec rows rows.zipIdx ((c.initKnown rows).expandExtra rows) g
  have hx : (c.init rows).extraPlur = ((c.initKnown rows).expandExtra rows).extraPlur := (fillRows_tables _ _ _).2.2.2
  have hk : ∀ (rows : List GramRow) (c : TagCls), (rows.foldl (fun c r => c.addKnown r.name r.alias_) c).incompat = c.incompat ∧
      (rows.foldl (fun c r => c.addKnown r.name r.alias_) c).indices = c.indices := by
    intro rows
    induction rows with
    | nil => intro c; exact ⟨rfl, rfl⟩
    | cons r rows ih => intro c; rw [List.foldl_cons, (ih _).1, (ih _).2, addKnown_true]; exact ⟨rfl, rfl⟩
  have hk' := hk rows { c with known := ∅, lat2cyr := [], cyr2lat := [] }
  rw [hx]
  unfold TagCls.init lastRow
  rw [h.1, h.2]
  constructor
  · split
    · rfl
    · show ((c.initKnown rows).expandExtra rows).incompat g = c.incompat g
      exact congrFun hk'.1 g
  · split
    · rfl
    · show ((c.initKnown rows).expandExtra rows).indices g = c.indices g
      exact congrFun hk'.2 g

theorem lastRow_isSome (rows : List GramRow) (g : Str) (h : g ∈ rows.map GramRow.name) : ∃ e, lastRow rows g = some e ∧ e.1 ∈ rows ∧ e.1.name = g := by
  unfold lastRow
  cases hf : rows.zipIdx.reverse.find? fun e => e.1.name = g with
  | some e =>
    refine ⟨e, rfl, ?_, by simpa using List.find?_some hf⟩
    have := List.mem_of_find?_eq_some hf
    rw [List.mem_reverse] at this
    exact (List.mem_zipIdx_iff_getElem?.1 (show (e.1, e.2) ∈ rows.zipIdx from this)) |> List.mem_of_getElem?
  | none =>
    obtain ⟨r, hr, rfl⟩ := List.mem_map.1 h
    obtain ⟨i, hi, he⟩ := List.getElem_of_mem hr
    have := List.find?_eq_none.1 hf (r, i) (by
      rw [List.mem_reverse, List.mem_zipIdx_iff_getElem?, List.getElem?_eq_getElem hi, he])
    simp at this

theorem loads_snoc (c : TagCls) (hist : List (List GramRow)) (rows : List GramRow) : c.loads (hist ++ [rows]) = (c.loads hist).init rows := by
  unfold TagCls.loads; rw [List.foldl_append]; rfl

/-- **C26.** After any history of loads, the known grammemes are exactly the names of the last table, and the translation tables and
the incompatibilities of all its grammemes other than `plur` are those a fresh process would have after loading it. -/
theorem c26_last_load (hist hist' : List (List GramRow)) (rows : List GramRow) :
    let c := TagCls.initial.loads (hist ++ [rows])
    let c' := TagCls.initial.loads (hist' ++ [rows])
    (∀ g, g ∈ c.known ↔ g ∈ rows.map GramRow.name) ∧ c.lat2cyr = c'.lat2cyr ∧ c.cyr2lat = c'.cyr2lat ∧
    (∀ g ∈ rows.map GramRow.name, c.indices g = c'.indices g) ∧
    (∀ g ∈ rows.map GramRow.name, g ≠ c!"plur" → c.incompat g = c'.incompat g) := by
  intro c c'
  have e : c = (TagCls.initial.loads hist).init rows := loads_snoc _ _ _
  have e' : c' = (TagCls.initial.loads hist').init rows := loads_snoc _ _ _
  obtain ⟨a1, a2, a3⟩ := init_tables (TagCls.initial.loads hist) rows
  obtain ⟨b1, b2, _⟩ := init_tables (TagCls.initial.loads hist') rows
  rw [e, e']
  refine ⟨fun g => ?_, a1.trans b1.symm, a2.trans b2.symm, ?_, ?_⟩
  · rw [a3]
    have : ∀ (pairs : List (Str × Str)) (c : TagCls), g ∈ (c.addAll pairs).known ↔ g ∈ pairs.map Prod.fst ∨ g ∈ c.known := by
      intro pairs
      induction pairs with
      | nil => intro c; simp [TagCls.addAll]
      | cons p pairs ih =>
        intro c
        show g ∈ (TagCls.addAll (c.addKnown p.1 p.2) pairs).known ↔ _
        rw [ih, addKnown_true, Finset.mem_insert, List.map_cons, List.mem_cons]
        tauto
    rw [this, List.map_map]
    simp [TagCls.initial, Function.comp_def]
  · intro g hg
    obtain ⟨x, hx, _⟩ := lastRow_isSome rows g hg
    rw [(init_incompat _ rows g).2, (init_incompat _ rows g).2, hx]
  · intro g hg hne
    obtain ⟨x, hx, _, hn⟩ := lastRow_isSome rows g hg
    rw [(init_incompat _ rows g).1, (init_incompat _ rows g).1, hx]
    simp only [incompatRow, hn, if_neg hne]

/-- Spec: the table says that the parent of `q` is `p`.  A table may list a grammeme more than once; the last entry counts. -/
def ParentIn (rows : List GramRow) (q p : Str) : Prop :=
  p ≠ [] ∧ ∃ a r b, rows = a ++ r :: b ∧ r.name = q ∧ r.parent = some p ∧ ∀ x ∈ b, x.name ≠ q

/-- Spec: some entry puts `g` one or two levels below `p`. -/
def Below (rows : List GramRow) (g p : Str) : Prop :=
  ∃ r ∈ rows, r.name = g ∧ ((r.parent = some p ∧ p ≠ []) ∨ ∃ q, r.parent = some q ∧ ParentIn rows q p)

theorem truthy_some (o : Option Str) (p : Str) : truthy o = some p ↔ o = some p ∧ p ≠ [] := by
  cases o with
  | none => simp [truthy]
  | some s =>
    cases s with
    | nil => simp only [truthy]; constructor
             · intro h; cases h
             · rintro ⟨h, hp⟩; cases h; exact absurd rfl hp
    | cons c s => simp only [truthy, Option.some.injEq]; constructor
                  · rintro rfl; simp
                  · exact fun h => h.1

theorem parentOf_iff (rows : List GramRow) (q p : Str) : parentOf rows q = some p ↔ ParentIn rows q p := by
  unfold parentOf ParentIn
  rw [truthy_some]
  constructor
  · rintro ⟨h, hp⟩
    refine ⟨hp, ?_⟩
    obtain ⟨r, hr, hrp⟩ := Option.bind_eq_some_iff.1 h
    obtain ⟨hq, as, bs, e, hb⟩ := List.find?_eq_some_iff_append.1 hr
    refine ⟨bs.reverse, r, as.reverse, ?_, by simpa using hq, hrp, fun x hx => by simpa using hb x (by simpa using hx)⟩
    rw [← List.reverse_reverse rows, e]; simp
  · rintro ⟨hp, a, r, b, rfl, hq, hrp, hb⟩
    refine ⟨Option.bind_eq_some_iff.2 ⟨r, ?_, hrp⟩, hp⟩
    refine List.find?_eq_some_iff_append.2 ⟨by simpa using hq, b.reverse, a.reverse, by simp, fun x hx => by simpa using hb x (by simpa using hx)⟩

/-- What `children[p]` is: the grammemes whose parent is `p`, or whose parent's parent is `p`. -/
theorem mem_kids (rows : List GramRow) (g p : Str) : g ∈ kids rows p ↔ Below rows g p := by
  unfold kids Below
  simp only [List.mem_toFinset, List.mem_map, List.mem_filter, decide_eq_true_eq, Option.bind_eq_some_iff, truthy_some, parentOf_iff]
  constructor
  · rintro ⟨r, ⟨hr, h⟩, rfl⟩; exact ⟨r, hr, rfl, h⟩
  · rintro ⟨r, hr, rfl, h⟩; exact ⟨r, ⟨hr, h⟩, rfl⟩

/-- **C26, what leaks.** Loading never removes an incompatibility rule of `plur`: the set after the loads contains the set before. -/
theorem c26_leak_monotone (c : TagCls) (hist : List (List GramRow)) : c.extraPlur ⊆ (c.loads hist).extraPlur := by
  induction hist generalizing c with
  | nil => exact Finset.Subset.refl _
  | cons rows hist ih =>
    refine Finset.Subset.trans ?_ (ih (c.init rows))
    rw [expand_init]
    exact Finset.subset_union_left

/-- **C26, exact history dependence of `plur`.** A grammeme is in the extra set after a history of loads iff it is `GNdr` or was
reached from it, one table at a time, by going down at most two levels per load. -/
theorem c26_extra_exact (hist : List (List GramRow)) (rows : List GramRow) (g : Str) :
    (g ∈ (TagCls.initial.loads []).extraPlur ↔ g = c!"GNdr") ∧
    (g ∈ (TagCls.initial.loads (hist ++ [rows])).extraPlur ↔
      g ∈ (TagCls.initial.loads hist).extraPlur ∨ ∃ p ∈ (TagCls.initial.loads hist).extraPlur, Below rows g p) := by
  constructor
  · simp [TagCls.loads, TagCls.initial]
  · rw [loads_snoc, expand_init, Finset.mem_union, Finset.mem_biUnion]
    simp only [mem_kids]

/-- **C26, what is incompatible after a load.** A grammeme of the table excludes the other grammemes one or two levels below its parent (the parent of its last
entry), and `plur` in addition the set that depends on history; grammemes the table does not list keep the rules they had. -/
theorem c26_incompatible (c : TagCls) (rows : List GramRow) (g : Str) :
    (∀ a r b, rows = a ++ r :: b → r.name = g → (∀ x ∈ b, x.name ≠ g) →
      ∀ x, x ∈ (c.init rows).incompat g ↔
        x ≠ g ∧ ((g = c!"plur" ∧ x ∈ (c.init rows).extraPlur) ∨ ∃ p, r.parent = some p ∧ Below rows x p)) ∧
    (g ∉ rows.map GramRow.name → (c.init rows).incompat g = c.incompat g) := by
  constructor
  · rintro a r b rfl rfl hb x
    have hl : lastRow (a ++ r :: b) r.name = some (r, a.length) := by
      unfold lastRow
      rw [List.find?_eq_some_iff_append]
      refine ⟨by simp, ((b.zipIdx (a.length + 1)).reverse), a.zipIdx.reverse, ?_, ?_⟩
      · rw [List.zipIdx_append, List.zipIdx_cons, List.reverse_append, List.reverse_cons]; simp
      · intro e he
        rw [List.mem_reverse] at he
        obtain ⟨y, i⟩ := e
        have := (List.mem_zipIdx he).2.2
        have hy : y ∈ b := by rw [this]; exact List.getElem_mem _
        simpa using hb y hy
    rw [(init_incompat c _ _).1, hl]
    simp only [incompatRow, Finset.mem_erase, Finset.mem_union]
    refine and_congr_right fun _ => or_congr ?_ ?_
    · by_cases h : r.name = c!"plur" <;> simp [h]
    · cases hp : r.parent with
      | none => simp [kidsOf]
      | some p => simp [kidsOf, mem_kids]
  · intro h
    rw [(init_incompat c rows g).1]
    have : lastRow rows g = none := by
      unfold lastRow
      rw [List.find?_eq_none]
      rintro ⟨y, i⟩ he hy
      rw [List.mem_reverse] at he
      have := (List.mem_zipIdx he).2.2
      refine h (List.mem_map.2 ⟨y, by rw [this]; exact List.getElem_mem _, by simpa using hy⟩)
    rw [this]

/-- **C26, the same table again.** If nothing lies more than two levels below `GNdr` (as in the OpenCorpora table), loading the
same table a second time — and so any number of times — leaves the class exactly as it is. -/
theorem c26_reload (rows : List GramRow)
    (hdeep : ∀ g x, Below rows g (c!"GNdr") → Below rows x g → x = c!"GNdr" ∨ Below rows x (c!"GNdr")) :
    (TagCls.initial.init rows).init rows = TagCls.initial.init rows := by
  replace hdeep : ∀ g, g ∈ kids rows (c!"GNdr") → kids rows g ⊆ insert (c!"GNdr") (kids rows (c!"GNdr")) := by
    intro g hg x hx
    rw [Finset.mem_insert, mem_kids]
    rw [mem_kids] at hg hx
    exact hdeep g x hg hx
  have hx : (TagCls.initial.init rows).extraPlur = insert (c!"GNdr") (kids rows (c!"GNdr")) := by
    rw [expand_init]; simp [TagCls.initial]
  have hxx : ((TagCls.initial.init rows).init rows).extraPlur = (TagCls.initial.init rows).extraPlur := by
    rw [expand_init, hx]
    apply Finset.Subset.antisymm
    · apply Finset.union_subset (Finset.Subset.refl _)
      intro g hg
      obtain ⟨p, hp, hg⟩ := Finset.mem_biUnion.1 hg
      rcases Finset.mem_insert.1 hp with rfl | hp
      · exact Finset.mem_insert_of_mem hg
      · exact hdeep p hp hg
    · exact Finset.subset_union_left
  obtain ⟨a1, a2, a3⟩ := init_tables (TagCls.initial.init rows) rows
  obtain ⟨b1, b2, b3⟩ := init_tables TagCls.initial rows
  have hi : ∀ g, ((TagCls.initial.init rows).init rows).incompat g = (TagCls.initial.init rows).incompat g := by
    intro g
    rw [(init_incompat _ rows g).1, (init_incompat _ rows g).1, hxx]
    split <;> rfl
  have hj : ∀ g, ((TagCls.initial.init rows).init rows).indices g = (TagCls.initial.init rows).indices g := by
    intro g
    rw [(init_incompat _ rows g).2, (init_incompat _ rows g).2]
    split <;> rfl
  generalize (TagCls.initial.init rows).init rows = x at *
  generalize TagCls.initial.init rows = y at *
  cases x; cases y
  simp only [TagCls.mk.injEq]
  exact ⟨a3.trans b3.symm, a1.trans b1.symm, a2.trans b2.symm, hxx, funext hi, funext hj⟩

/-- **C26, defect: the same table again.** With three levels below `GNdr` the second load changes what `plur` excludes. -/
theorem c26_reload_changes :
    let rows : List GramRow := [⟨c!"plur", none, c!"мн"⟩, ⟨c!"GNdr", none, c!"род"⟩, ⟨c!"a", some (c!"GNdr"), c!"а"⟩,
      ⟨c!"b", some (c!"a"), c!"б"⟩, ⟨c!"d", some (c!"b"), c!"д"⟩]
    c!"d" ∉ (TagCls.initial.init rows).incompat (c!"plur") ∧ c!"d" ∈ ((TagCls.initial.init rows).init rows).incompat (c!"plur") := by
  decide +kernel

/-- **C26, defect: a leak.** A grammeme that an earlier dictionary listed as a gender is removed by `plur` in a later dictionary in
which it is not one; loading only the later dictionary would keep it. -/
theorem c26_leaks :
    let A : List GramRow := [⟨c!"GNdr", none, c!"род"⟩, ⟨c!"Qual", some (c!"GNdr"), c!"кач"⟩]
    let B : List GramRow := [⟨c!"ADJF", none, c!"ПРИЛ"⟩, ⟨c!"Qual", none, c!"кач"⟩, ⟨c!"plur", none, c!"мн"⟩]
    updatedGrammemes (TagCls.initial.loads [B]) ⟨c!"ADJF,Qual"⟩ [c!"plur"] = .ok [c!"ADJF", c!"Qual", c!"plur"].toFinset ∧
    updatedGrammemes (TagCls.initial.loads [A, B]) ⟨c!"ADJF,Qual"⟩ [c!"plur"] = .ok [c!"ADJF", c!"plur"].toFinset := by
  decide +kernel

/-- **C26, defect: stale tags.** Whenever a grammeme of an older dictionary is not in the newly loaded table, asking an object of
the older dictionary about it (and not finding it there) raises `ValueError` where it answered `False` before; creating a tag with it fails. -/
theorem c26_stale (c : TagCls) (old new : List GramRow) (hne : new ≠ []) (g : Str) (hg : g ∈ old.map GramRow.name) (hn : g ∉ new.map GramRow.name)
    (t : Tag) (ht : g ∉ t.grammemes) :
    (c.init old).contains t g = .ok false ∧ ((c.init old).init new).contains t g = .error .valueError ∧
    ∀ s, g ∈ splitTag s → ((c.init old).init new).mkTag s = .error .valueError := by
  have known : ∀ (c : TagCls) (rows : List GramRow) (g : Str), g ∈ (c.init rows).known ↔ g ∈ rows.map GramRow.name := by
    intro c rows g
    have h1 := (init_tables c rows).2.2
    have h2 := (init_tables (TagCls.initial.loads []) rows).2.2
    rw [h1, ← h2]
    exact (c26_last_load [] [] rows).1 g
  have nz : ∀ (c : TagCls) (rows : List GramRow), rows ≠ [] → ¬ (c.init rows).known = ∅ := by
    intro c rows hr he
    obtain ⟨r, rs, rfl⟩ := List.exists_cons_of_ne_nil hr
    have := (known c (r :: rs) r.name).2 (by simp)
    rw [he] at this; simp at this
  refine ⟨?_, ?_, ?_⟩
  · unfold TagCls.contains TagCls.isKnown TagCls.assertInit
    rw [if_neg ht, if_neg (nz c old (by rintro rfl; simp at hg))]
    simp [(known c old g).2 hg]
  · unfold TagCls.contains TagCls.isKnown TagCls.assertInit
    rw [if_neg ht, if_neg (nz _ new hne)]
    have : ¬ g ∈ ((c.init old).init new).known := mt (known _ new g).1 hn
    simp [this]
  · intro s hs
    unfold TagCls.mkTag TagCls.assertKnown TagCls.assertInit
    have : ¬ (splitTag s).toFinset ⊆ ((c.init old).init new).known := by
      intro hsub
      exact hn ((known _ new g).1 (hsub (by simpa using hs)))
    rw [if_neg this, if_neg (nz _ new hne)]
    rfl

example :
    let rows : List GramRow := [⟨c!"plur", none, c!"мн"⟩, ⟨c!"GNdr", none, c!"род"⟩, ⟨c!"masc", some (c!"GNdr"), c!"мр"⟩,
      ⟨c!"Ms-f", some (c!"masc"), c!"ор"⟩]
    ∀ g x, Below rows g (c!"GNdr") → Below rows x g → x = c!"GNdr" ∨ Below rows x (c!"GNdr") := by
  intro rows g x hg hx
  rw [← mem_kids] at hg hx ⊢
  have h : ∀ g ∈ kids rows (c!"GNdr"), ∀ x ∈ kids rows g, x = c!"GNdr" ∨ x ∈ kids rows (c!"GNdr") := by decide +kernel
  exact h g hg x hx

/-! ### C27 -/

/-- A way to choose an element of a non-empty set: `next(iter(s))`, whatever the iteration order of the set is. -/
def IsChoice (pick : Grams → Option Str) : Prop := ∀ s : Grams, s ≠ ∅ → ∃ g ∈ s, pick s = some g

/-- **C27.** `tag.POS`, `tag.case`, … is `None` exactly when the tag has no grammeme of the category, otherwise it is a grammeme of the
tag and of the category; if there is only one such grammeme it is that one whatever the iteration order is. -/
theorem c27_attribute (pick : Grams → Option Str) (hp : IsChoice pick) (t : Tag) (cat : Grams) :
    (t.category pick cat = none ↔ ∀ g ∈ cat, g ∉ t.tuple) ∧
    (∀ g, t.category pick cat = some g → g ∈ t.tuple ∧ g ∈ cat) ∧
    (∀ g, g ∈ t.tuple → g ∈ cat → (∀ g' ∈ t.tuple, g' ∈ cat → g' = g) → t.category pick cat = some g) := by
  have hmem : ∀ g, g ∈ cat ∩ t.grammemes ↔ g ∈ cat ∧ g ∈ t.tuple := by intro g; simp [Tag.grammemes]
  by_cases h : cat ∩ t.grammemes = ∅
  · have hn : ∀ g ∈ cat, g ∉ t.tuple := by
      intro g hg ht
      have := (hmem g).2 ⟨hg, ht⟩
      rw [h] at this; simp at this
    unfold Tag.category
    rw [if_pos h]
    exact ⟨⟨fun _ => hn, fun _ => rfl⟩, by simp, fun g ht hc => absurd ht (hn g hc)⟩
  · obtain ⟨g0, hg0, hp0⟩ := hp _ h
    have h0 := (hmem g0).1 hg0
    unfold Tag.category
    rw [if_neg h, hp0]
    refine ⟨⟨by simp, fun hn => absurd h0.2 (hn g0 h0.1)⟩, ?_, ?_⟩
    · intro g hg
      simp only [Option.some.injEq] at hg
      rw [← hg]; exact ⟨h0.2, h0.1⟩
    · intro g _ _ hu
      rw [hu g0 h0.2 h0.1]

/-- **C27, comparison.** `tag.<category> == other`: `ValueError` exactly when the attribute is not `None` and `other` is a string
outside the category; otherwise plain equality (so never true for `None` on one side only). -/
theorem c27_comparison (pick : Grams → Option Str) (t : Tag) (cat : Grams) (other : Option Str) :
    (attrEq cat (t.category pick cat) other = .error .valueError ↔ t.category pick cat ≠ none ∧ ∃ o, other = some o ∧ o ∉ cat) ∧
    (¬ (t.category pick cat ≠ none ∧ ∃ o, other = some o ∧ o ∉ cat) →
      attrEq cat (t.category pick cat) other = .ok (decide (t.category pick cat = other))) := by
  cases hv : t.category pick cat with
  | none =>
    cases other with
    | none => simp [attrEq]
    | some o => simp [attrEq]
  | some g =>
    cases other with
    | none => simp [attrEq]
    | some o =>
      by_cases ho : o ∈ cat
      · simp [attrEq, ho]
      · simp [attrEq, ho]

/-- **C27, use.** For a tag with exactly one grammeme of a category and a string of that category, comparing the attribute is the same
as asking whether the grammeme is in the tag. -/
theorem c27_eq_iff_contains (pick : Grams → Option Str) (hp : IsChoice pick) (t : Tag) (cat : Grams) (c : TagCls)
    (g : Str) (hg : g ∈ t.tuple) (hc : g ∈ cat) (hu : ∀ g' ∈ t.tuple, g' ∈ cat → g' = g) (o : Str) (ho : o ∈ cat) (hk : o ∈ c.known) :
    attrEq cat (t.category pick cat) (some o) = c.contains t o := by
  rw [(c27_attribute pick hp t cat).2.2 g hg hc hu]
  have hm : ∀ x, x ∈ t.grammemes ↔ x ∈ t.tuple := by intro x; simp [Tag.grammemes]
  unfold attrEq TagCls.contains TagCls.isKnown TagCls.assertInit
  simp only [ho, if_true, hm]
  by_cases h : o ∈ t.tuple
  · rw [if_pos h, hu o h ho]; simp
  · rw [if_neg h]
    have hne : ¬ g = o := by rintro rfl; exact h hg
    have hk' : ¬ c.known = ∅ := by intro he; rw [he] at hk; simp at hk
    simp [hne, hk', hk]

example : IsChoice (fun s : Grams => if h : s ≠ ∅ then some (Classical.choose (Finset.nonempty_iff_ne_empty.2 h)) else none) := by
  intro s hs
  exact ⟨_, Classical.choose_spec (Finset.nonempty_iff_ne_empty.2 hs), by simp [hs]⟩

example : (⟨c!"NOUN,inan,masc sing,nomn"⟩ : Tag).tuple = [c!"NOUN", c!"inan", c!"masc", c!"sing", c!"nomn"] := by decide +kernel

end Verif
