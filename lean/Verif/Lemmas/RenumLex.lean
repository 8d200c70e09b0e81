/-
Lexemes, normalization and inflection under renumbered paradigms.
-/
import Verif.Lemmas.Renumber
import Verif.Lemmas.AnswerTags

set_option linter.unusedSectionVars false

namespace Verif

variable {S : Type} [Score S] {φ : Nat → Nat}

mutual
/-- Every dictionary form in the stack is one of the tables. -/
def Stack.placed (d : Dict) : Stack → Prop
  | .nil => True
  | .push r x => r.placed d ∧ x.placed d
def Method.placed (d : Dict) : Method → Prop
  | .dict _ _ k i => ∃ p, d.paradigms[k]? = some p ∧ i < p.length / 3
  | .simple _ _ => True
  | .fixed _ _ r => r.placed d
  | .both _ l r => l.placed d ∧ r.placed d
end

theorem Stack.setFirst_placed {d : Dict} (x : Method) (hx : x.placed d) : ∀ st : Stack, st.placed d → (st.setFirst x).placed d
  | .nil, _ => ⟨trivial, hx⟩
  | .push .nil _, _ => ⟨trivial, hx⟩
  | .push (.push r m') _, h => ⟨Stack.setFirst_placed x hx (.push r m') h.1, h.2⟩

theorem Stack.first_placed {d : Dict} : ∀ (st : Stack) (x : Method), st.placed d → st.first = some x → x.placed d
  | .push .nil _, _, h, e => by simp only [Stack.first, Option.some.injEq] at e; subst e; exact h.2
  | .push (.push r m') _, x, h, e => Stack.first_placed (.push r m') x h.1 e

theorem extract_placed {d : Dict} {u : UObj} {st : Stack} {k i : Nat} (h : st.placed d) (e : extractParaInfo u st = .ok (k, i)) :
    ∃ p, d.paradigms[k]? = some p ∧ i < p.length / 3 := by
  unfold extractParaInfo at e
  split at e
  · next u' w para idx hf =>
    split at e
    · simp only [Except.ok.injEq, Prod.mk.injEq] at e
      obtain ⟨rfl, rfl⟩ := e
      exact Stack.first_placed st _ h hf
    · simp at e
  · simp at e
  · simp at e

theorem extract_renum (u : UObj) (st : Stack) : extractParaInfo u (st.renum φ) = (extractParaInfo u st).map fun r => (φ r.1, r.2) := by
  unfold extractParaInfo
  rw [first_renum]
  cases st.first with
  | none => rfl
  | some x =>
    cases x with
    | dict u' w k i =>
      show (if u' = u then _ else _) = Except.map _ (if u' = u then _ else _)
      split <;> rfl
    | simple _ _ => rfl
    | fixed _ _ _ => rfl
    | both _ _ _ => rfl

theorem renum_nil_iff (st : Stack) : st.renum φ = .nil ↔ st = .nil := by
  cases st <;> simp [Stack.renum]

theorem info_length {d : Dict} {k : Nat} {p : List Nat} {rows : List (Str × Tag × Str)} (hp : d.paradigms[k]? = some p) (h : d.paradigmInfo k = .ok rows) :
    rows.length = p.length / 3 := by
  unfold Dict.paradigmInfo at h
  rw [(pyGet_ok_iff _ _ _).2 hp, ok_bind] at h
  have := mapE_length h
  simpa using this

theorem lexeme_placed (m : Morph S) (st : Stack) (p : Parse S) (fs : List (Parse S))
    (h : lexemeOf m st p = .ok fs) (hn : st.placed m.dict) (f : Parse S) (hf : f ∈ fs) : f.stack.placed m.dict := by
  fun_induction lexemeOf m st p generalizing fs f <;> try (simp at h; done)
  case case2 =>
    unfold dictLexeme at h
    simp only [bind_ok_iff, pure_eq_ok, Except.ok.injEq] at h
    obtain ⟨pi, h1, para, h2, stem, h3, rows, h4, rfl⟩ := h
    obtain ⟨i, hi, rfl⟩ := List.mem_mapIdx.1 hf
    have := info_length ((pyGet_ok_iff _ _ _).1 h2) h4
    exact Stack.setFirst_placed (.dict _ _ _ _) (show ∃ p, _ from ⟨para, (pyGet_ok_iff _ _ _).1 h2, by omega⟩) _ hn
  case case4 => simp only [Except.ok.injEq] at h; subst h; simp at hf; subst hf; exact hn
  case case5 => simp only [Except.ok.injEq] at h; subst h; simp at hf; subst hf; exact hn
  case case6 => simp only [Except.ok.injEq] at h; subst h; simp at hf; subst hf; exact hn
  case case7 hk =>
    simp only [bind_ok_iff, pure_eq_ok, Except.ok.injEq] at h
    obtain ⟨tags, _, rfl⟩ := h
    obtain ⟨t, ht, rfl⟩ := List.mem_map.1 hf
    exact hn
  case case8 hk =>
    simp only [Except.ok.injEq] at h
    subst h
    obtain ⟨t, ht, rfl⟩ := List.mem_map.1 hf
    exact hn
  case case10 ih =>
    simp only [bind_ok_iff, pure_eq_ok, Except.ok.injEq] at h
    obtain ⟨fs0, h0, rfl⟩ := h
    obtain ⟨f0, hf0, rfl⟩ := List.mem_map.1 hf
    exact ⟨ih fs0 h0 hn.1 f0 hf0, trivial⟩
  case case12 ih =>
    simp only [bind_ok_iff, pure_eq_ok, Except.ok.injEq] at h
    obtain ⟨fs0, h0, rfl⟩ := h
    obtain ⟨f0, hf0, rfl⟩ := List.mem_map.1 hf
    exact ⟨ih fs0 h0 hn.1 f0 hf0, trivial⟩
  case case14 ih =>
    simp only [bind_ok_iff, pure_eq_ok, Except.ok.injEq] at h
    obtain ⟨fs0, h0, rfl⟩ := h
    obtain ⟨f0, hf0, rfl⟩ := List.mem_map.1 hf
    exact ⟨ih fs0 h0 hn.1 f0 hf0, trivial⟩
  case case17 ih =>
    simp only [bind_ok_iff, pure_eq_ok, Except.ok.injEq] at h
    obtain ⟨fs0, h0, rfl⟩ := h
    obtain ⟨f0, hf0, rfl⟩ := List.mem_map.1 hf
    exact ⟨trivial, ih fs0 h0 hn.2 f0 hf0⟩
  case case19 ih2 ih1 =>
    simp only [bind_ok_iff, pure_eq_ok, Except.ok.injEq] at h
    obtain ⟨lf, hlf, rf, hrf, ls, hls, rs, hrs, h⟩ := h
    obtain ⟨r, hr, hb⟩ := mapE_mem h hf
    obtain ⟨l, hl, rfl⟩ := mergeForms_ok hb
    exact ⟨trivial, ih2 lf ls hls hn.2.1 l (closest_mem hl), ih1 rf rs hrs hn.2.2 r hr⟩

theorem dictLexeme_redict (d d' : Dict) {sub : Subst} {W : Str} (hd : d.WF) (ha : d.AgreeOn d' sub φ W) (u : UObj) (st : Stack) (hst : st.placed d) (p : Parse S) :
    dictLexeme d' u (st.renum φ) (p.renum φ) = (dictLexeme d u st p).map (List.map (Parse.renum φ)) := by
  unfold dictLexeme
  rw [extract_renum]
  cases he : extractParaInfo u st with
  | error e => rfl
  | ok pi =>
    obtain ⟨k, i⟩ := pi
    obtain ⟨pl, hp, hi⟩ := extract_placed hst he
    obtain ⟨p', hp', hl, h⟩ := para_same hd ha hp
    show (pyGet d'.paradigms (φ k) >>= _) = Except.map _ (pyGet d.paradigms k >>= _)
    rw [(pyGet_ok_iff _ _ _).2 hp, (pyGet_ok_iff _ _ _).2 hp', ok_bind, ok_bind]
    have hs : d'.stem p' i p.word = d.stem pl i p.word := by
      unfold Dict.stem
      rw [(h i hi).1, (h i hi).2.1]
    show (d'.stem p' i p.word >>= _) = Except.map _ (d.stem pl i p.word >>= _)
    rw [hs]
    cases d.stem pl i p.word with
    | error e => rfl
    | ok stem =>
      show (d'.paradigmInfo (φ k) >>= _) = Except.map _ (d.paradigmInfo k >>= _)
      rw [ha.paradigms k pl hp]
      cases d.paradigmInfo k with
      | error e => rfl
      | ok rows =>
        show Except.ok _ = Except.ok _
        congr 1
        apply List.ext_getElem
        · simp
        · intro j h1 h2
          simp only [List.getElem_mapIdx, List.getElem_map, lexForm, Parse.renum, setFirst_renum, Method.renum]

theorem dictNormalized_redict (d d' : Dict) {sub : Subst} {W : Str} (hd : d.WF) (ha : d.AgreeOn d' sub φ W) (u : UObj) (st : Stack) (hst : st.placed d) (p : Parse S) :
    dictNormalized d' u (st.renum φ) (p.renum φ) = (dictNormalized d u st p).map (Parse.renum φ) := by
  unfold dictNormalized
  rw [extract_renum]
  cases he : extractParaInfo u st with
  | error e => rfl
  | ok pi =>
    obtain ⟨k, i⟩ := pi
    obtain ⟨pl, hp, hi⟩ := extract_placed hst he
    obtain ⟨p', hp', hl, h⟩ := para_same hd ha hp
    show (if i = 0 then _ else d'.tagInfo (φ k) 0 >>= _) = Except.map _ (if i = 0 then _ else d.tagInfo k 0 >>= _)
    rw [(h 0 (by omega)).2.2]
    split
    · rfl
    · cases d.tagInfo k 0 with
      | error e => rfl
      | ok t =>
        show Except.ok _ = Except.ok _
        simp only [Parse.renum, setFirst_renum, Method.renum]

theorem closest_renum (r : Parse S) (ls : List (Parse S)) (best : Nat) (cur : Option (Parse S)) :
    closestLoop (r.renum φ) (ls.map (Parse.renum φ)) best (cur.map (Parse.renum φ)) = (closestLoop r ls best cur).map (Parse.renum φ) := by
  induction ls generalizing best cur with
  | nil => rfl
  | cons l ls ih =>
    simp only [List.map_cons, closestLoop]
    have e : formDist (l.renum φ) (r.renum φ) = formDist l r := rfl
    rw [e]
    split
    · exact ih _ (some l)
    · exact ih _ cur

theorem mergeForms_renum (u : UObj) (ls : List (Parse S)) (r : Parse S) :
    mergeForms u (ls.map (Parse.renum φ)) (r.renum φ) = (mergeForms u ls r).map (Parse.renum φ) := by
  unfold mergeForms closest
  have := closest_renum (φ := φ) r ls 1000000 none
  rw [Option.map_none] at this
  rw [this]
  cases closestLoop r ls 1000000 none <;> rfl

theorem right_renum (p : Parse S) : withoutRightPart (p.renum φ) = (withoutRightPart p).map (Parse.renum φ) := by
  unfold withoutRightPart
  show (beforeHyphen p.word >>= fun w => beforeHyphen p.nf >>= fun n => _) = _
  cases beforeHyphen p.word with
  | error e => rfl
  | ok w => cases beforeHyphen p.nf <;> rfl

theorem left_renum (p : Parse S) : withoutLeftPart (p.renum φ) = (withoutLeftPart p).map (Parse.renum φ) := by
  unfold withoutLeftPart
  show (afterHyphen p.word >>= fun w => afterHyphen p.nf >>= fun n => _) = _
  cases afterHyphen p.word with
  | error e => rfl
  | ok w => cases afterHyphen p.nf <;> rfl

theorem lexeme_redict (m : Morph S) {d' : Dict} {W : Str} (hd : m.dict.WF) (ha : m.dict.AgreeOn d' m.sub φ W) (st : Stack) (p : Parse S)
    (hst : st.placed m.dict) : lexemeOf (m.withDict d') (st.renum φ) (p.renum φ) = (lexemeOf m st p).map (List.map (Parse.renum φ)) := by
  have deco : ∀ (x y : Except PyErr (List (Parse S))) (g g' : Parse S → Parse S), y = x.map (List.map (Parse.renum φ)) →
      (∀ f, g' (f.renum φ) = (g f).renum φ) →
      (do let fs ← y; pure (fs.map g') : Except PyErr (List (Parse S))) = (do let fs ← x; pure (fs.map g) : Except PyErr (List (Parse S))).map (List.map (Parse.renum φ)) := by
    intro x y g g' hy hg
    rw [hy]
    cases x with
    | error e => rfl
    | ok fs =>
      show Except.ok _ = Except.ok _
      rw [List.map_map, List.map_map]
      congr 1
      exact List.map_congr_left fun f _ => hg f
  fun_induction lexemeOf m st p
  case case1 => rfl
  case case2 hk =>
    simp only [Stack.renum, Method.renum, lexemeOf, hk]
    exact dictLexeme_redict m.dict d' hd ha _ _ hst _
  case case3 hk =>
    simp only [Stack.renum, Method.renum, lexemeOf]
    rfl
  case case4 hk => simp only [Stack.renum, Method.renum, lexemeOf, hk]; rfl
  case case5 hk => simp only [Stack.renum, Method.renum, lexemeOf, hk]; rfl
  case case6 hk => simp only [Stack.renum, Method.renum, lexemeOf, hk]; rfl
  case case7 p masc femn hk =>
    simp only [Stack.renum, Method.renum, lexemeOf, hk]
    show (genderTags m.cls masc femn p.tag >>= _) = _
    cases genderTags m.cls masc femn p.tag with
    | error e => rfl
    | ok tags =>
      show Except.ok _ = Except.ok _
      rw [List.map_map]
      rfl
  case case8 hk =>
    simp only [Stack.renum, Method.renum, lexemeOf, hk]
    show Except.ok _ = Except.ok _
    rw [List.map_map]
    rfl
  case case9 hk => simp only [Stack.renum, Method.renum, lexemeOf, hk, if_true]; rfl
  case case10 hk hne ih =>
    simp only [Stack.renum, Method.renum, lexemeOf, hk, renum_nil_iff, hne, if_false]
    exact deco _ _ _ _ (ih hst.1) fun f => rfl
  case case11 hk => simp only [Stack.renum, Method.renum, lexemeOf, hk, if_true]; rfl
  case case12 hk hne ih =>
    simp only [Stack.renum, Method.renum, lexemeOf, hk, renum_nil_iff, hne, if_false]
    exact deco _ _ _ _ (ih hst.1) fun f => rfl
  case case13 hk => simp only [Stack.renum, Method.renum, lexemeOf, hk, if_true]; rfl
  case case14 hk hne ih =>
    simp only [Stack.renum, Method.renum, lexemeOf, hk, renum_nil_iff, hne, if_false]
    exact deco _ _ _ _ (ih hst.1) fun f => rfl
  case case15 =>
    simp only [Stack.renum, Method.renum, lexemeOf]
    rfl
  case case16 hne =>
    simp only [Stack.renum, Method.renum, lexemeOf, ne_eq, renum_nil_iff]
    rw [if_pos hne]
    rfl
  case case17 hne ih =>
    simp only [Stack.renum, Method.renum, lexemeOf, ne_eq, renum_nil_iff]
    rw [if_neg hne]
    exact deco _ _ _ _ (ih hst.2) fun f => rfl
  case case18 hne =>
    simp only [Stack.renum, Method.renum, lexemeOf, ne_eq, renum_nil_iff]
    rw [if_pos hne]
    rfl
  case case19 u left right p hne ih2 ih1 =>
    simp only [Stack.renum, Method.renum, lexemeOf, ne_eq, renum_nil_iff]
    rw [if_neg hne, right_renum, left_renum]
    cases withoutRightPart p with
    | error e => rfl
    | ok lf =>
      cases withoutLeftPart p with
      | error e => rfl
      | ok rf =>
        show (lexemeOf (m.withDict d') (left.renum φ) (lf.renum φ) >>= fun ls => lexemeOf (m.withDict d') (right.renum φ) (rf.renum φ) >>= fun rs => _) =
          Except.map _ (lexemeOf m left lf >>= fun ls => lexemeOf m right rf >>= fun rs => _)
        rw [ih2 lf hst.2.1, ih1 rf hst.2.2]
        cases lexemeOf m left lf with
        | error e => rfl
        | ok ls =>
          cases lexemeOf m right rf with
          | error e => rfl
          | ok rs => exact mapE_redict (mergeForms u ls) _ (Parse.renum φ) (Parse.renum φ) rs fun r _ => mergeForms_renum u ls r

theorem normalized_placed (m : Morph S) (hd : m.dict.WF) (st : Stack) (p q : Parse S)
    (h : normalizedOf m st p = .ok q) (hn : st.placed m.dict) : q.stack.placed m.dict := by
  fun_induction normalizedOf m st p generalizing q <;> try (simp at h; done)
  case case2 =>
    simp only [dictNormalized, bind_ok_iff, pure_eq_ok, Except.ok.injEq] at h
    obtain ⟨⟨k, i⟩, he, h⟩ := h
    split at h
    · simp only [Except.ok.injEq] at h
      subst h
      exact hn
    · simp only [bind_ok_iff, Except.ok.injEq] at h
      obtain ⟨tag, ht, rfl⟩ := h
      obtain ⟨pl, hp, hi⟩ := extract_placed hn he
      exact Stack.setFirst_placed (.dict _ _ _ _) (show ∃ p, _ from ⟨pl, hp, by omega⟩) _ hn
  case case4 => simp only [Except.ok.injEq] at h; subst h; exact hn
  case case5 => simp only [Except.ok.injEq] at h; subst h; exact hn
  case case6 => simp only [Except.ok.injEq] at h; subst h; exact hn
  case case7 hk =>
    simp only [bind_ok_iff, pure_eq_ok, Except.ok.injEq] at h
    obtain ⟨tags, _, t, ht, rfl⟩ := h
    exact hn
  case case8 hk =>
    simp only [bind_ok_iff, pure_eq_ok, Except.ok.injEq] at h
    obtain ⟨t, ht, rfl⟩ := h
    exact hn
  case case10 ih =>
    simp only [bind_ok_iff, pure_eq_ok, Except.ok.injEq] at h
    obtain ⟨f0, h0, rfl⟩ := h
    exact ⟨ih f0 h0 hn.1, trivial⟩
  case case12 ih =>
    simp only [bind_ok_iff, pure_eq_ok, Except.ok.injEq] at h
    obtain ⟨f0, h0, rfl⟩ := h
    exact ⟨ih f0 h0 hn.1, trivial⟩
  case case14 ih =>
    simp only [bind_ok_iff, pure_eq_ok, Except.ok.injEq] at h
    obtain ⟨f0, h0, rfl⟩ := h
    exact ⟨ih f0 h0 hn.1, trivial⟩
  case case16 =>
    simp only [bind_ok_iff] at h
    obtain ⟨fs, hfs, h⟩ := h
    refine lexeme_placed m _ _ fs hfs hn q ?_
    cases fs with
    | nil => simp [pyNext] at h
    | cons f fs => simp only [pyNext, Except.ok.injEq] at h; rw [h]; exact List.mem_cons_self ..
  case case18 =>
    simp only [bind_ok_iff] at h
    obtain ⟨lf, hlf, rf, hrf, ls, hls, rs, hrs, r, hr, hb⟩ := h
    obtain ⟨l, hl, rfl⟩ := mergeForms_ok hb
    have hr : r ∈ rs := by
      cases rs with
      | nil => simp [pyNext] at hr
      | cons f fs => simp only [pyNext, Except.ok.injEq] at hr; rw [hr]; exact List.mem_cons_self ..
    exact ⟨trivial, lexeme_placed m _ lf ls hls hn.2.1 l (closest_mem hl), lexeme_placed m _ rf rs hrs hn.2.2 r hr⟩

theorem pyNext_renum (fs : List (Parse S)) : pyNext (fs.map (Parse.renum φ)) = (pyNext fs).map (Parse.renum φ) := by
  cases fs <;> rfl

theorem normalized_redict (m : Morph S) {d' : Dict} {W : Str} (hd : m.dict.WF) (ha : m.dict.AgreeOn d' m.sub φ W) (st : Stack) (p : Parse S)
    (hst : st.placed m.dict) : normalizedOf (m.withDict d') (st.renum φ) (p.renum φ) = (normalizedOf m st p).map (Parse.renum φ) := by
  have deco : ∀ (x y : Except PyErr (Parse S)) (g g' : Parse S → Parse S), y = x.map (Parse.renum φ) →
      (∀ f, g' (f.renum φ) = (g f).renum φ) →
      (do let f ← y; pure (g' f) : Except PyErr (Parse S)) = (do let f ← x; pure (g f) : Except PyErr (Parse S)).map (Parse.renum φ) := by
    intro x y g g' hy hg
    rw [hy]
    cases x with
    | error e => rfl
    | ok f =>
      show Except.ok _ = Except.ok _
      rw [hg]
  fun_induction normalizedOf m st p
  case case1 => rfl
  case case2 hk =>
    simp only [Stack.renum, Method.renum, normalizedOf, hk]
    exact dictNormalized_redict m.dict d' hd ha _ _ hst _
  case case3 hk =>
    simp only [Stack.renum, Method.renum, normalizedOf]
    rfl
  case case4 hk => simp only [Stack.renum, Method.renum, normalizedOf, hk]; rfl
  case case5 hk => simp only [Stack.renum, Method.renum, normalizedOf, hk]; rfl
  case case6 hk => simp only [Stack.renum, Method.renum, normalizedOf, hk]; rfl
  case case7 p masc femn hk =>
    simp only [Stack.renum, Method.renum, normalizedOf, hk]
    show (genderTags m.cls masc femn p.tag >>= _) = _
    cases genderTags m.cls masc femn p.tag with
    | error e => rfl
    | ok tags =>
      show (pyGet tags 0 >>= _) = Except.map _ (pyGet tags 0 >>= _)
      cases pyGet tags 0 <;> rfl
  case case8 tags hk =>
    simp only [Stack.renum, Method.renum, normalizedOf, hk]
    cases pyGet tags 0 <;> rfl
  case case9 hk => simp only [Stack.renum, Method.renum, normalizedOf, hk, if_true]; rfl
  case case10 hk hne ih =>
    simp only [Stack.renum, Method.renum, normalizedOf, hk, renum_nil_iff, hne, if_false]
    exact deco _ _ _ _ (ih hst.1) fun f => rfl
  case case11 hk => simp only [Stack.renum, Method.renum, normalizedOf, hk, if_true]; rfl
  case case12 hk hne ih =>
    simp only [Stack.renum, Method.renum, normalizedOf, hk, renum_nil_iff, hne, if_false]
    exact deco _ _ _ _ (ih hst.1) fun f => rfl
  case case13 hk => simp only [Stack.renum, Method.renum, normalizedOf, hk, if_true]; rfl
  case case14 hk hne ih =>
    simp only [Stack.renum, Method.renum, normalizedOf, hk, renum_nil_iff, hne, if_false]
    exact deco _ _ _ _ (ih hst.1) fun f => rfl
  case case15 =>
    simp only [Stack.renum, Method.renum, normalizedOf]
    rfl
  case case16 rest u left right p =>
    simp only [Stack.renum, Method.renum, normalizedOf]
    have := lexeme_redict m hd ha (.push rest (.fixed u left right)) p hst
    simp only [Stack.renum, Method.renum] at this
    rw [this]
    cases lexemeOf m (.push rest (.fixed u left right)) p with
    | error e => rfl
    | ok fs => exact pyNext_renum fs
  case case17 hne =>
    simp only [Stack.renum, Method.renum, normalizedOf, ne_eq, renum_nil_iff]
    rw [if_pos hne]
    rfl
  case case18 u left right p hne =>
    simp only [Stack.renum, Method.renum, normalizedOf, ne_eq, renum_nil_iff]
    rw [if_neg hne, right_renum, left_renum]
    cases withoutRightPart p with
    | error e => rfl
    | ok lf =>
      cases withoutLeftPart p with
      | error e => rfl
      | ok rf =>
        show (lexemeOf (m.withDict d') (left.renum φ) (lf.renum φ) >>= fun ls => lexemeOf (m.withDict d') (right.renum φ) (rf.renum φ) >>= fun rs => _) =
          Except.map _ (lexemeOf m left lf >>= fun ls => lexemeOf m right rf >>= fun rs => _)
        rw [lexeme_redict m hd ha _ lf hst.2.1, lexeme_redict m hd ha _ rf hst.2.2]
        cases lexemeOf m left lf with
        | error e => rfl
        | ok ls =>
          cases lexemeOf m right rf with
          | error e => rfl
          | ok rs =>
            show (pyNext (rs.map (Parse.renum φ)) >>= _) = Except.map _ (pyNext rs >>= _)
            rw [pyNext_renum]
            cases pyNext rs with
            | error e => rfl
            | ok r => exact mergeForms_renum u ls r

/-! ### Inflection -/

theorem nlargest_renum (sim : Sim) (g : Grams) (fs : List (Parse S)) :
    nlargest1 sim (fun f : Parse S => similarity sim g f.tag) (fs.map (Parse.renum φ)) =
      (nlargest1 sim (fun f : Parse S => similarity sim g f.tag) fs).map (Parse.renum φ) := by
  cases fs with
  | nil => rfl
  | cons a as =>
    simp only [List.map_cons, nlargest1, Option.map_some, Option.some.injEq]
    induction as generalizing a with
    | nil => rfl
    | cons b as ih =>
      simp only [List.map_cons, maxLoop]
      have e1 : (a.renum φ).tag = a.tag := rfl
      have e2 : (b.renum φ).tag = b.tag := rfl
      rw [e1, e2]
      split
      · exact ih b
      · exact ih a

theorem matching_renum (fs : List (Parse S)) (req : Grams) : matching (fs.map (Parse.renum φ)) req = (matching fs req).map (Parse.renum φ) := by
  unfold matching
  rw [List.filter_map]
  rfl

theorem inflect_redict (m : Morph S) {d' : Dict} {W : Str} (hd : m.dict.WF) (ha : m.dict.AgreeOn d' m.sub φ W) (sim : Sim) (p : Parse S)
    (hst : p.stack.placed m.dict) (req : List Str) :
    (m.withDict d').inflect sim (p.renum φ) req = (m.inflect sim p req).map (Option.map (Parse.renum φ)) := by
  unfold Morph.inflect Morph.lexeme
  have := lexeme_redict m hd ha p.stack p hst
  rw [show (p.renum φ).stack = p.stack.renum φ from rfl, this]
  cases lexemeOf m p.stack p with
  | error e => rfl
  | ok fs =>
    show (if matching (fs.map (Parse.renum φ)) _ = [] then _ else _) = Except.map _ (if matching fs _ = [] then _ else _)
    simp only [matching_renum, List.map_eq_nil_iff, nlargest_renum]
    have e : ∀ req, updatedGrammemes (m.withDict d').cls (p.renum φ).tag req = updatedGrammemes m.cls p.tag req := fun _ => rfl
    simp only [e]
    split
    · cases updatedGrammemes m.cls p.tag (req.map fixRare1) <;> rfl
    · cases updatedGrammemes m.cls p.tag req <;> rfl

theorem makeAgree_redict (m : Morph S) {d' : Dict} {W : Str} (hd : m.dict.WF) (ha : m.dict.AgreeOn d' m.sub φ W) (sim : Sim) (pick : Grams → Option Str) (p : Parse S)
    (hst : p.stack.placed m.dict) (num : Int) :
    (m.withDict d').makeAgree sim pick (p.renum φ) num = (m.makeAgree sim pick p num).map (Option.map (Parse.renum φ)) := by
  unfold Morph.makeAgree
  rw [show (p.renum φ).tag = p.tag from rfl]
  cases allSome (numeralAgreement pick p.tag num) with
  | some req => exact inflect_redict m hd ha sim p hst req
  | none =>
    dsimp only
    unfold Morph.lexeme
    rw [show (p.renum φ).stack = p.stack.renum φ from rfl, lexeme_redict m hd ha p.stack p hst]
    cases lexemeOf m p.stack p with
    | error e => rfl
    | ok fs =>
      show (m.cls.assertInit >>= _) = Except.map _ (m.cls.assertInit >>= _)
      cases m.cls.assertInit <;> rfl

theorem deriv_placed {m : Morph S} (hd : m.dict.WF) {wl w nf : Str} {tag : Tag} {st : Stack} (h : Deriv m wl w tag nf st) : st.placed m.dict := by
  induction h with
  | dict _ hw =>
    obtain ⟨p, pre, tag, suf, stem, hf, _⟩ := hd.words _ hw
    exact ⟨trivial, p, hf.hpara, hf.hidx⟩
  | plain => exact ⟨trivial, trivial⟩
  | firstName => exact ⟨trivial, trivial⟩
  | patronymic => exact ⟨trivial, trivial⟩
  | particle _ _ _ _ _ _ ih => exact ⟨ih, trivial⟩
  | fixed _ _ _ _ _ _ _ _ _ ih => exact ⟨trivial, ih⟩
  | both _ _ _ _ _ _ _ _ _ _ _ ih ih' => exact ⟨trivial, ih, ih'⟩
  | pref _ _ _ _ _ _ ih => exact ⟨ih, trivial⟩
  | upref _ _ _ _ _ _ _ hw =>
    obtain ⟨p, pre, tag, suf, stem, hf, _⟩ := hd.words _ hw
    exact ⟨⟨trivial, p, hf.hpara, hf.hidx⟩, trivial⟩
  | suff _ _ _ _ _ ht _ _ he =>
    obtain ⟨_, p, pre, tag, suf, hf, _⟩ := hd.pred _ _ ht _ he
    exact ⟨⟨trivial, p, hf.hpara, hf.hidx⟩, trivial⟩

end Verif
