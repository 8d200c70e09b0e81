/-
C116: comparing tags and results.
-/
import Verif.Model.Compare
import Verif.Props.C23
import Verif.Lemmas.Bind
import Verif.Demo

set_option linter.unusedSectionVars false

namespace Verif

variable {S : Type} [Score S]

/-! ### Tags -/

/-- **Two tags.**  `==`, `!=`, `<`, `>` compare the grammemes in the order of the tag string, whatever the classes of the tags and whichever of them is
asked; `<=` and `>=` raise `TypeError`, even for equal tags. -/
theorem c116_tags (derived : Nat → Nat → Bool) (c d : Nat) (t u : Tag) :
    compareTags derived .eq (.tag c t) (.tag d u) = .ok (decide (t.tuple = u.tuple)) ∧
    compareTags derived .ne (.tag c t) (.tag d u) = .ok (decide (t.tuple ≠ u.tuple)) ∧
    compareTags derived .lt (.tag c t) (.tag d u) = .ok (listLt strLt t.tuple u.tuple) ∧
    compareTags derived .gt (.tag c t) (.tag d u) = .ok (listLt strLt u.tuple t.tuple) ∧
    compareTags derived .le (.tag c t) (.tag d u) = .error .typeError ∧
    compareTags derived .ge (.tag c t) (.tag d u) = .error .typeError := by
  have h1 : t.eqv u = decide (t.tuple = u.tuple) := by
    rw [Bool.eq_iff_iff, (c23_eq t u u).1]; simp
  have h2 : u.eqv t = decide (t.tuple = u.tuple) := by rw [← (c23_eq t u u).2.2.1, h1]
  refine ⟨?_, ?_, ?_, ?_, ?_, ?_⟩ <;> unfold compareTags <;> cases derived d c <;>
    simp [Operand.method, tagMethod, CmpOp.swap, h1, h2, Tag.lt, Tag.gt, pure, Except.pure, bind, Except.bind]

/-- **A tag and something that is no tag** (a string, a number, `None`, …): `==`, `!=`, `<` and `>` raise `AttributeError`, on whichever side the tag is;
`<=` and `>=` raise `TypeError`. -/
theorem c116_others (derived : Nat → Nat → Bool) (c : Nat) (t : Tag) (op : CmpOp) :
    compareTags derived op (.tag c t) .other = .error (if op = .le ∨ op = .ge then .typeError else .attributeError) ∧
    compareTags derived op .other (.tag c t) = .error (if op = .le ∨ op = .ge then .typeError else .attributeError) := by
  cases op <;> simp [compareTags, Operand.method, tagMethod, CmpOp.swap, bind, Except.bind]

/-! ### Values without tags and scores -/

mutual
/-- No tags and no scores in it. -/
def PyV.plain : PyV S → Prop
  | .tag _ => False
  | .num _ => False
  | .tuple l => PyV.plains l
  | _ => True
def PyV.plains : List (PyV S) → Prop
  | [] => True
  | a :: l => PyV.plain a ∧ PyV.plains l
end

mutual
theorem eq_plain : ∀ a b : PyV S, a.plain → b.plain → ∃ e, a.eq b = .ok e ∧ (e = true ↔ a = b)
  | .str x, b, _, hb => by cases b <;> simp_all [PyV.eq, PyV.plain]
  | .int x, b, _, hb => by cases b <;> simp_all [PyV.eq, PyV.plain]
  | .unit x, b, _, hb => by cases b <;> simp_all [PyV.eq, PyV.plain]
  | .num x, b, ha, _ => by simp [PyV.plain] at ha
  | .tag x, b, ha, _ => by simp [PyV.plain] at ha
  | .tuple l, b, ha, hb => by
    cases b with
    | tuple k =>
      simp only [PyV.plain] at ha hb
      obtain ⟨e, h1, h2⟩ := eqs_plain l k ha hb
      exact ⟨e, by simp [PyV.eq, h1], by simp [h2]⟩
    | str => simp [PyV.eq]
    | int => simp [PyV.eq]
    | unit => simp [PyV.eq]
    | num => simp [PyV.plain] at hb
    | tag => simp [PyV.plain] at hb
theorem eqs_plain : ∀ l k : List (PyV S), PyV.plains l → PyV.plains k → ∃ e, PyV.eqs l k = .ok e ∧ (e = true ↔ l = k)
  | [], [], _, _ => by simp [PyV.eqs]
  | [], _ :: _, _, _ => by simp [PyV.eqs]
  | _ :: _, [], _, _ => by simp [PyV.eqs]
  | a :: l, b :: k, hl, hk => by
    simp only [PyV.plains] at hl hk
    obtain ⟨e, h1, h2⟩ := eq_plain a b hl.1 hk.1
    obtain ⟨e', h1', h2'⟩ := eqs_plain l k hl.2 hk.2
    cases e with
    | true =>
      refine ⟨e', by simp [PyV.eqs, h1, h1'], ?_⟩
      have : a = b := h2.1 rfl
      simp [this, h2']
    | false =>
      refine ⟨false, by simp [PyV.eqs, h1, pure, Except.pure], ?_⟩
      have : a ≠ b := fun h => by simpa using h2.2 h
      simp [this]
end

mutual
theorem cmp_plain (op : CmpOp) : ∀ a b : PyV S, a.plain → b.plain → (∃ e, PyV.cmp op a b = .ok e) ∨ PyV.cmp op a b = .error .typeError
  | .str x, b, _, hb => by cases b <;> simp_all [PyV.cmp, PyV.plain]
  | .int x, b, _, hb => by cases b <;> simp_all [PyV.cmp, PyV.plain]
  | .unit x, b, _, hb => by cases b <;> simp_all [PyV.cmp, PyV.plain]
  | .num x, b, ha, _ => by simp [PyV.plain] at ha
  | .tag x, b, ha, _ => by simp [PyV.plain] at ha
  | .tuple l, b, ha, hb => by
    cases b with
    | tuple k =>
      simp only [PyV.plain] at ha hb
      simpa only [PyV.cmp] using cmps_plain op l k ha hb
    | str => simp [PyV.cmp]
    | int => simp [PyV.cmp]
    | unit => simp [PyV.cmp]
    | num => simp [PyV.plain] at hb
    | tag => simp [PyV.plain] at hb
theorem cmps_plain (op : CmpOp) : ∀ l k : List (PyV S), PyV.plains l → PyV.plains k →
    (∃ e, PyV.cmps op l k = .ok e) ∨ PyV.cmps op l k = .error .typeError
  | [], [], _, _ => by simp [PyV.cmps]
  | [], _ :: _, _, _ => by simp [PyV.cmps]
  | _ :: _, [], _, _ => by simp [PyV.cmps]
  | a :: l, b :: k, hl, hk => by
    simp only [PyV.plains] at hl hk
    obtain ⟨e, h1, _⟩ := eq_plain a b hl.1 hk.1
    cases e with
    | true => simpa [PyV.cmps, h1] using cmps_plain op l k hl.2 hk.2
    | false => simpa [PyV.cmps, h1] using cmp_plain op a b hl.1 hk.1
end

theorem plains_append (l k : List (PyV S)) (hl : PyV.plains l) (hk : PyV.plains k) : PyV.plains (l ++ k) := by
  induction l with
  | nil => exact hk
  | cons a l ih => simp only [List.cons_append, PyV.plains] at hl ⊢; exact ⟨hl.1, ih hl.2⟩

mutual
theorem method_plain : ∀ m : Method, (m.value : PyV S).plain
  | .dict u w para idx => by simp [Method.value, PyV.plain, PyV.plains]
  | .simple u arg => by simp [Method.value, PyV.plain, PyV.plains]
  | .fixed u left right => by simp [Method.value, PyV.plain, PyV.plains, stack_plain right]
  | .both u left right => by simp [Method.value, PyV.plain, PyV.plains, stack_plain left, stack_plain right]
theorem stack_plain : ∀ s : Stack, PyV.plains (s.values : List (PyV S))
  | .nil => by simp [Stack.values, PyV.plains]
  | .push rest m => by
    rw [Stack.values]
    exact plains_append _ _ (stack_plain rest) (by simp [PyV.plains, method_plain m])
end

mutual
theorem method_value_inj : ∀ m m' : Method, (m.value : PyV S) = m'.value → m = m'
  | .dict u w para idx, m', h => by cases m' <;> simp [Method.value] at h <;> simp [h]
  | .simple u arg, m', h => by cases m' <;> simp [Method.value] at h <;> simp [h]
  | .fixed u left right, m', h => by
    cases m' with
    | fixed u' left' right' =>
      simp only [Method.value, PyV.tuple.injEq, List.cons.injEq, PyV.unit.injEq, PyV.str.injEq, and_true] at h
      rw [h.1, h.2.1, stack_values_inj right right' h.2.2]
    | dict => simp [Method.value] at h
    | simple => simp [Method.value] at h
    | both => simp [Method.value] at h
  | .both u left right, m', h => by
    cases m' with
    | both u' left' right' =>
      simp only [Method.value, PyV.tuple.injEq, List.cons.injEq, PyV.unit.injEq, and_true] at h
      rw [h.1, stack_values_inj left left' h.2.1, stack_values_inj right right' h.2.2]
    | dict => simp [Method.value] at h
    | simple => simp [Method.value] at h
    | fixed => simp [Method.value] at h
theorem stack_values_inj : ∀ s s' : Stack, (s.values : List (PyV S)) = s'.values → s = s'
  | .nil, s', h => by
    cases s' with
    | nil => rfl
    | push r m => simp [Stack.values] at h
  | .push rest m, s', h => by
    cases s' with
    | nil => simp [Stack.values] at h
    | push r m' =>
      rw [Stack.values, Stack.values] at h
      obtain ⟨h1, h2⟩ := List.append_inj' h rfl
      rw [stack_values_inj rest r h1, method_value_inj m m' (by simpa using h2)]
end

/-! ### Results -/

/-- Scores that compare equal. -/
def SameScore (a b : S) : Prop := Score.le a b = true ∧ Score.le b a = true

/-- **Equality of results** never raises, and holds exactly if the word, the grammemes in their order, the normal form, the score and the methods
(the units being the same objects) are the same. -/
theorem c116_equal (p q : Parse S) :
    ∃ e, p.eq q = .ok e ∧
      (e = true ↔ p.word = q.word ∧ p.tag.tuple = q.tag.tuple ∧ p.nf = q.nf ∧ SameScore p.score q.score ∧ p.stack = q.stack) := by
  obtain ⟨e, h1, h2⟩ := eqs_plain (S := S) p.stack.values q.stack.values (stack_plain _) (stack_plain _)
  have h2' : e = true ↔ p.stack = q.stack := h2.trans ⟨stack_values_inj _ _, fun h => by rw [h]⟩
  have ht : p.tag.eqv q.tag = decide (p.tag.tuple = q.tag.tuple) := by rw [Bool.eq_iff_iff, (c23_eq p.tag q.tag q.tag).1]; simp
  unfold Parse.eq Parse.members
  simp only [PyV.eqs, PyV.eq, ok_bind, ht, h1]
  by_cases a1 : p.word = q.word
  · by_cases a2 : p.tag.tuple = q.tag.tuple
    · by_cases a3 : p.nf = q.nf
      · by_cases a4 : (Score.le p.score q.score && Score.le q.score p.score) = true
        · cases e
          · have hne : p.stack ≠ q.stack := fun h => by simpa using h2'.2 h
            exact ⟨false, by simp [a1, a2, a3, a4, pure, Except.pure], by simp [hne]⟩
          · have := h2'.1 rfl
            refine ⟨true, by simp [a1, a2, a3, a4], ?_⟩
            simp [a1, a2, a3, this, SameScore]
            simpa using a4
        · refine ⟨false, by simp [a1, a2, a3, a4, pure, Except.pure], ?_⟩
          simp only [Bool.and_eq_true] at a4
          simp [SameScore, a4]
      · exact ⟨false, by simp [a1, a2, a3, pure, Except.pure], by simp [a3]⟩
    · exact ⟨false, by simp [a1, a2, pure, Except.pure], by simp [a2]⟩
  · exact ⟨false, by simp [a1, pure, Except.pure], by simp [a1]⟩

/-- What an order operator says of two values, given whether the first is less and whether they are equal. -/
def opSays : CmpOp → (less equal : Bool) → Bool
  | .eq, _, e => e
  | .ne, _, e => !e
  | .lt, l, _ => l
  | .le, l, e => l || e
  | .gt, l, e => !(l || e)
  | .ge, l, _ => !l

private theorem holds_opSays (op : CmpOp) (l e : Bool) : op.holds l e = opSays op l e := by cases op <;> cases l <;> cases e <;> rfl

private theorem order_aux (op : CmpOp) (h1 : op ≠ .eq) (h2 : op ≠ .ne) (p q : Parse S) :
    (p.word ≠ q.word → p.cmp op q = .ok (op.holds (strLt p.word q.word) false)) ∧
    (p.word = q.word → p.tag.tuple ≠ q.tag.tuple →
      p.cmp op q = if op = .le ∨ op = .ge then .error .typeError else .ok (op.holds (listLt strLt p.tag.tuple q.tag.tuple) false)) ∧
    (p.word = q.word → p.tag.tuple = q.tag.tuple → p.nf ≠ q.nf → p.cmp op q = .ok (op.holds (strLt p.nf q.nf) false)) ∧
    (p.word = q.word → p.tag.tuple = q.tag.tuple → p.nf = q.nf → ¬ SameScore p.score q.score →
      p.cmp op q = .ok (op.holds (Score.le p.score q.score && !Score.le q.score p.score) false)) := by
  have ht : p.tag.eqv q.tag = decide (p.tag.tuple = q.tag.tuple) := by rw [Bool.eq_iff_iff, (c23_eq p.tag q.tag q.tag).1]; simp
  unfold Parse.cmp Parse.members
  simp only [PyV.cmps, PyV.eq, PyV.cmp, ok_bind, ht]
  refine ⟨fun a1 => by simp [a1], fun a1 a2 => ?_, fun a1 a2 a3 => by simp [a1, a2, a3], fun a1 a2 a3 a4 => ?_⟩
  · obtain ⟨_, _, c3, c4, c5, c6⟩ := c116_tags (fun _ _ => false) 0 0 p.tag q.tag
    simp only [a1, decide_true, if_true, a2, decide_false, Bool.false_eq_true, if_false]
    have hs := c23_order p.tag q.tag q.tag
    cases op with
    | eq => exact absurd rfl h1
    | ne => exact absurd rfl h2
    | lt => rw [c3]; simp [CmpOp.holds]
    | le => rw [c5]; simp
    | ge => rw [c6]; simp
    | gt =>
      rw [c4]
      have hne : ¬ p.tag.eqv q.tag = true := by rw [ht]; simpa using a2
      simp only [CmpOp.holds, reduceCtorEq, or_self, if_false, Bool.not_false, Bool.and_true, Except.ok.injEq]
      change q.tag.lt p.tag = !p.tag.lt q.tag
      cases e : p.tag.lt q.tag
      · rcases hs.1 with h | h | h
        · rw [e] at h; simp at h
        · exact absurd h hne
        · simp [h]
      · cases e' : q.tag.lt p.tag
        · rfl
        · exact absurd ⟨e, e'⟩ hs.2.2.1
  · have a4' : (Score.le p.score q.score && Score.le q.score p.score) = false := by
      rw [Bool.eq_false_iff]; intro h; simp only [Bool.and_eq_true] at h; exact a4 h
    simp [a1, a2, a3, a4']

/-- **The order of results**: by word, then grammemes, then normal form, then score.  If the words are the same and the grammemes are not, `<=` and `>=`
raise `TypeError`; nothing else raises as long as one of the four differs. -/
theorem c116_order (op : CmpOp) (h1 : op ≠ .eq) (h2 : op ≠ .ne) (p q : Parse S) :
    (p.word ≠ q.word → p.cmp op q = .ok (opSays op (strLt p.word q.word) false)) ∧
    (p.word = q.word → p.tag.tuple ≠ q.tag.tuple →
      p.cmp op q = if op = .le ∨ op = .ge then .error .typeError else .ok (opSays op (listLt strLt p.tag.tuple q.tag.tuple) false)) ∧
    (p.word = q.word → p.tag.tuple = q.tag.tuple → p.nf ≠ q.nf → p.cmp op q = .ok (opSays op (strLt p.nf q.nf) false)) ∧
    (p.word = q.word → p.tag.tuple = q.tag.tuple → p.nf = q.nf → ¬ SameScore p.score q.score →
      p.cmp op q = .ok (opSays op (Score.le p.score q.score && !Score.le q.score p.score) false)) := by
  simpa only [holds_opSays] using order_aux op h1 h2 p q

private theorem ties_aux (op : CmpOp) (p q : Parse S) (h1 : p.word = q.word) (h2 : p.tag.tuple = q.tag.tuple) (h3 : p.nf = q.nf)
    (h4 : SameScore p.score q.score) :
    (p.stack = q.stack → p.cmp op q = .ok (op.holds false true)) ∧ ((∃ e, p.cmp op q = .ok e) ∨ p.cmp op q = .error .typeError) ∧
    ∀ u v k i v' k' i', p.stack = .single (.dict u v k i) → q.stack = .single (.dict u v' k' i') →
      p.cmp op q = .ok (if v ≠ v' then op.holds (strLt v v') false else if k ≠ k' then op.holds (decide (k < k')) false
        else op.holds (decide (i < i')) (decide (i = i'))) := by
  have ht : p.tag.eqv q.tag = decide (p.tag.tuple = q.tag.tuple) := by rw [Bool.eq_iff_iff, (c23_eq p.tag q.tag q.tag).1]; simp
  have hc : p.cmp op q = (do
      let e ← PyV.eqs (S := S) p.stack.values q.stack.values
      if e then pure (op.holds false true) else PyV.cmps op (p.stack.values : List (PyV S)) q.stack.values) := by
    unfold Parse.cmp Parse.members
    have h4' : (Score.le p.score q.score && Score.le q.score p.score) = true := by simp [h4.1, h4.2]
    simp only [PyV.cmps, PyV.eq, PyV.cmp, ok_bind, ht, h1, h2, h3, h4', decide_true, if_true]
    rfl
  obtain ⟨e, e1, e2⟩ := eqs_plain (S := S) p.stack.values q.stack.values (stack_plain _) (stack_plain _)
  refine ⟨fun h => ?_, ?_, ?_⟩
  · have : e = true := e2.2 (by rw [h])
    rw [hc, e1, this]; rfl
  · rw [hc, e1, ok_bind]
    cases e with
    | true => exact .inl ⟨_, rfl⟩
    | false => exact cmps_plain op _ _ (stack_plain _) (stack_plain _)
  · intro u v k i v' k' i' hp hq
    rw [hc, hp, hq]
    by_cases a1 : v = v'
    · by_cases a2 : k = k'
      · by_cases a3 : i = i'
        · simp [Stack.values, Stack.single, Method.value, PyV.eqs, PyV.eq, a1, a2, a3, pure, Except.pure]
        · simp [Stack.values, Stack.single, Method.value, PyV.eqs, PyV.eq, PyV.cmps, PyV.cmp, a1, a2, a3, pure, Except.pure]
      · simp [Stack.values, Stack.single, Method.value, PyV.eqs, PyV.eq, PyV.cmps, PyV.cmp, a1, a2, pure, Except.pure]
    · simp [Stack.values, Stack.single, Method.value, PyV.eqs, PyV.eq, PyV.cmps, PyV.cmp, a1, pure, Except.pure]

/-- Results that agree in all four are compared by their methods: equal ones compare as equal; otherwise the answer may be `TypeError` (nothing else). -/
theorem c116_ties (op : CmpOp) (p q : Parse S) (h1 : p.word = q.word) (h2 : p.tag.tuple = q.tag.tuple) (h3 : p.nf = q.nf)
    (h4 : SameScore p.score q.score) :
    (p.stack = q.stack → p.cmp op q = .ok (opSays op false true)) ∧ ((∃ e, p.cmp op q = .ok e) ∨ p.cmp op q = .error .typeError) ∧
    ∀ u v k i v' k' i', p.stack = .single (.dict u v k i) → q.stack = .single (.dict u v' k' i') →
      p.cmp op q = .ok (if v ≠ v' then opSays op (strLt v v') false else if k ≠ k' then opSays op (decide (k < k')) false
        else opSays op (decide (i < i')) (decide (i = i'))) := by
  simpa only [holds_opSays] using ties_aux op p q h1 h2 h3 h4

private theorem mem_of_mapE {α β : Type} {f : α → Except PyErr β} {l : List α} {r : List β} (h : mapE f l = .ok r) (b : β) (hb : b ∈ r) :
    ∃ a, f a = .ok b := by
  have := (mapE_ok_iff f l r).1 h
  induction this with
  | nil => simp at hb
  | cons h1 _ ih =>
    rcases List.mem_cons.1 hb with rfl | hb
    · exact ⟨_, h1⟩
    · exact ih ((mapE_ok_iff _ _ _).2 ‹_›) hb

/-- **Sorting the dictionary works**: any two results of `iter_known_word_parses` can be compared with `<` and `>` (and so sorted). -/
theorem c116_iter (m : Morph S) (pre : Str) (ps : List (Parse S)) (h : m.iterKnownWordParses pre = .ok ps) (p q : Parse S) (hp : p ∈ ps) (hq : q ∈ ps)
    (op : CmpOp) (ho : op = .lt ∨ op = .gt) : ∃ b, p.cmp op q = .ok b := by
  have hst : ∃ u, ∀ r ∈ ps, ∃ v k i, r.stack = .single (.dict u v k i) := by
    unfold Morph.iterKnownWordParses at h
    cases hw : m.dict.iterKnownWords pre with
    | error e => rw [hw] at h; simp [bind, Except.bind] at h
    | ok ws =>
      rw [hw, ok_bind] at h
      cases hu : pyGet m.units 0 with
      | error e =>
        cases ws with
        | nil => simp only [mapE, Except.ok.injEq] at h; subst h; exact ⟨⟨0, .dict⟩, by simp⟩
        | cons a as => simp [mapE, hu, bind, Except.bind] at h
      | ok u =>
        refine ⟨u.1.obj, fun r hr => ?_⟩
        obtain ⟨a, ha⟩ := mem_of_mapE h r hr
        rw [hu, ok_bind] at ha
        simp only [pure, Except.pure, Except.ok.injEq] at ha
        subst ha
        exact ⟨_, _, _, rfl⟩
  obtain ⟨u, hu⟩ := hst
  have hop : op ≠ .eq ∧ op ≠ .ne ∧ ¬ (op = .le ∨ op = .ge) := by rcases ho with rfl | rfl <;> simp
  obtain ⟨c1, c2, c3, c4⟩ := c116_order op hop.1 hop.2.1 p q
  by_cases a1 : p.word = q.word
  · by_cases a2 : p.tag.tuple = q.tag.tuple
    · by_cases a3 : p.nf = q.nf
      · by_cases a4 : SameScore p.score q.score
        · obtain ⟨v, k, i, e⟩ := hu p hp
          obtain ⟨v', k', i', e'⟩ := hu q hq
          exact ⟨_, (c116_ties op p q a1 a2 a3 a4).2.2 _ _ _ _ _ _ _ e e'⟩
        · exact ⟨_, c4 a1 a2 a3 a4⟩
      · exact ⟨_, c3 a1 a2 a3⟩
    · rw [if_neg hop.2.2] at c2; exact ⟨_, c2 a1 a2⟩
  · exact ⟨_, c1 a1⟩

/-! ### Concrete cases -/

/-- The example analyzer with a paradigm and endings for prediction that make "зюкошка" predictable in two ways (after an unknown prefix, and by its ending),
and with a probability for it. -/
def sortMorph : Morph Rat :=
  { Demo.morph with
    dict := { Demo.dict with
      paradigms := Demo.dict.paradigms ++ [[0, 2, 0, 1, 0, 0]]
      pred := [[((c!"ка"), (2, 4, 0)), ((c!"шка"), (2, 4, 0))], [], []] }
    est := some [((c!"зюкошка:NOUN,anim,femn sing,nomn"), 700000)] }

/-- **Sorting what `parse` returns can raise**: two results of `parse` for one word, with the same word, tag, normal form and score, cannot be compared. -/
theorem c116_sort_fails : ∃ ps, sortMorph.parse (c!"зюкошка") = .ok ps ∧ ∃ p ∈ ps, ∃ q ∈ ps,
    p.word = q.word ∧ p.tag = q.tag ∧ p.nf = q.nf ∧ p.score = q.score ∧
    p.eq q = .ok false ∧ ∀ op, op ≠ .eq → op ≠ .ne → p.cmp op q = .error .typeError := by
  have key : (match sortMorph.parse (c!"зюкошка") with
      | .ok (p :: q :: _) => decide (p.word = q.word ∧ p.tag = q.tag ∧ p.nf = q.nf ∧ p.score = q.score ∧ p.eq q = .ok false ∧
          p.cmp .lt q = .error .typeError ∧ p.cmp .le q = .error .typeError ∧ p.cmp .gt q = .error .typeError ∧ p.cmp .ge q = .error .typeError)
      | _ => false) = true := by decide +kernel
  split at key
  · rename_i p q r hps
    obtain ⟨k1, k2, k3, k4, k5, k6, k7, k8, k9⟩ := of_decide_eq_true key
    refine ⟨_, hps, p, by simp, q, by simp, k1, k2, k3, k4, k5, fun op h1 h2 => ?_⟩
    cases op with
    | eq => exact absurd rfl h1
    | ne => exact absurd rfl h2
    | lt => exact k6
    | le => exact k7
    | gt => exact k8
    | ge => exact k9
  · exact absurd key (by simp)

/-- `tag == 'NOUN'` raises; a tag compares with `<` but not with `<=`, not even with itself. -/
example : compareTags (fun _ _ => false) .eq (.tag 0 ⟨c!"NOUN,anim"⟩) .other = .error .attributeError ∧
    compareTags (fun _ _ => false) .lt (.tag 0 ⟨c!"ADJF,Qual masc"⟩) (.tag 1 ⟨c!"NOUN,anim"⟩) = .ok true ∧
    compareTags (fun _ _ => false) .eq (.tag 0 ⟨c!"NOUN,anim"⟩) (.tag 1 ⟨c!"NOUN anim"⟩) = .ok true ∧
    compareTags (fun _ _ => false) .le (.tag 0 ⟨c!"NOUN,anim"⟩) (.tag 0 ⟨c!"NOUN,anim"⟩) = .error .typeError := by decide +kernel

/-- The whole example dictionary can be listed, and there is something to sort; the first two results are in order. -/
example : (match Demo.morph.iterKnownWordParses [] with
    | .ok (p :: q :: r) => decide (r.length = 5 ∧ p.cmp .lt q = .ok true ∧ p.cmp .gt q = .ok false ∧ p.eq p = .ok true ∧ p.eq q = .ok false)
    | _ => false) = true := by decide +kernel

end Verif
