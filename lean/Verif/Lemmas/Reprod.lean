/-
The lexeme is reproduced from each of its forms; all forms share the normal form.
-/
import Verif.Lemmas.Lexeme

set_option linter.unusedSectionVars false

namespace Verif

variable {S : Type} [Score S]

/-! ### The closest left form -/

theorem formDist_congr {l l' r r' : Parse S} (hl : l.tag = l'.tag) (hr : r.tag = r'.tag) : formDist l r = formDist l' r' := by
  unfold formDist; rw [hl, hr]

theorem closestLoop_spec (r : Parse S) (ls : List (Parse S)) (best : Nat) (cur : Option (Parse S)) (l : Parse S) :
    closestLoop r ls best cur = some l ↔
      (cur = some l ∧ ∀ x ∈ ls, best ≤ formDist x r) ∨
      ∃ a b, ls = a ++ l :: b ∧ formDist l r < best ∧ (∀ x ∈ a, formDist l r < formDist x r) ∧ ∀ x ∈ b, formDist l r ≤ formDist x r := by
  induction ls generalizing best cur with
  | nil => simp [closestLoop]
  | cons y ys ih =>
    unfold closestLoop
    split
    · next hlt =>
      rw [ih]
      constructor
      · rintro (⟨he, hb⟩ | ⟨a, b, rfl, h1, h2, h3⟩)
        · simp only [Option.some.injEq] at he
          subst he
          exact .inr ⟨[], ys, rfl, hlt, by simp, hb⟩
        · exact .inr ⟨y :: a, b, rfl, by omega, by
            intro x hx
            rcases List.mem_cons.1 hx with rfl | hx
            · exact h1
            · exact h2 x hx, h3⟩
      · rintro (⟨he, hb⟩ | ⟨a, b, he, h1, h2, h3⟩)
        · have := hb y (by simp); omega
        · cases a with
          | nil =>
            simp only [List.nil_append, List.cons.injEq] at he
            obtain ⟨rfl, rfl⟩ := he
            exact .inl ⟨rfl, h3⟩
          | cons z zs =>
            simp only [List.cons_append, List.cons.injEq] at he
            obtain ⟨rfl, rfl⟩ := he
            exact .inr ⟨zs, b, rfl, h2 y (by simp), fun x hx => h2 x (by simp [hx]), h3⟩
    · next hge =>
      rw [ih]
      constructor
      · rintro (⟨he, hb⟩ | ⟨a, b, rfl, h1, h2, h3⟩)
        · refine .inl ⟨he, fun x hx => ?_⟩
          rcases List.mem_cons.1 hx with rfl | hx
          · omega
          · exact hb x hx
        · exact .inr ⟨y :: a, b, rfl, h1, by
            intro x hx
            rcases List.mem_cons.1 hx with rfl | hx
            · omega
            · exact h2 x hx, h3⟩
      · rintro (⟨he, hb⟩ | ⟨a, b, he, h1, h2, h3⟩)
        · exact .inl ⟨he, fun x hx => hb x (by simp [hx])⟩
        · cases a with
          | nil =>
            simp only [List.nil_append, List.cons.injEq] at he
            obtain ⟨rfl, rfl⟩ := he
            omega
          | cons z zs =>
            simp only [List.cons_append, List.cons.injEq] at he
            obtain ⟨rfl, rfl⟩ := he
            exact .inr ⟨zs, b, rfl, h1, fun x hx => h2 x (by simp [hx]), h3⟩

/-- `closest` is the first left form at minimal distance (below one million). -/
theorem closest_spec (ls : List (Parse S)) (r l : Parse S) : closest ls r = some l ↔
    ∃ a b, ls = a ++ l :: b ∧ formDist l r < 1000000 ∧ (∀ x ∈ a, formDist l r < formDist x r) ∧
      ∀ x ∈ b, formDist l r ≤ formDist x r := by
  unfold closest
  rw [closestLoop_spec]
  simp

theorem closest_mem {ls : List (Parse S)} {r l : Parse S} (h : closest ls r = some l) : l ∈ ls := by
  obtain ⟨a, b, rfl, _⟩ := (closest_spec ls r l).1 h
  simp

/-- Asking for the form closest to the closest form gives it again. -/
theorem closest_again {ls : List (Parse S)} {r r' l : Parse S} (h : closest ls r = some l) (hr : r'.tag = l.tag) :
    closest ls r' = some l := by
  obtain ⟨a, b, rfl, h1, h2, h3⟩ := (closest_spec ls r l).1 h
  rw [closest_spec]
  have h0 : formDist l r' = 0 := by
    unfold formDist; rw [hr]; simp
  refine ⟨a, b, rfl, by omega, ?_, fun x _ => by omega⟩
  intro x hx
  rw [h0]
  apply Nat.pos_of_ne_zero
  intro e
  unfold formDist at e
  rw [Finset.card_eq_zero, ← Finset.bot_eq_empty, symmDiff_eq_bot, hr] at e
  have := h2 x hx
  unfold formDist at this
  rw [e] at this
  omega

theorem mergeForms_ok {u : UObj} {ls : List (Parse S)} {r f : Parse S} (h : mergeForms u ls r = .ok f) :
    ∃ l, closest ls r = some l ∧ f = ⟨l.word ++ '-' :: r.word, l.tag, l.nf ++ '-' :: r.nf,
      Score.div (Score.add l.score r.score) (Score.ofNat 2), .single (.both u l.stack r.stack)⟩ := by
  unfold mergeForms at h
  split at h
  · simp at h
  · next l hl => simp at h; exact ⟨l, hl, h.symm⟩

theorem before_hyphen (a b : Str) (ha : '-' ∉ a) : beforeHyphen (a ++ '-' :: b) = .ok a := by
  unfold beforeHyphen
  rw [if_pos (by simp)]
  rw [List.takeWhile_append_of_pos (by intro x hx; simp; rintro rfl; exact ha hx)]
  simp

theorem after_hyphen (a b : Str) (ha : '-' ∉ a) : afterHyphen (a ++ '-' :: b) = .ok b := by
  unfold afterHyphen
  rw [if_pos (by simp)]
  rw [List.dropWhile_append_of_pos (by intro x hx; simp; rintro rfl; exact ha hx)]
  simp

theorem lexeme_both (m : Morph S) (st st' : Stack) (u : UObj) (w w' n n' : Str) (hw : '-' ∉ w) (hn : '-' ∉ n) (t : Tag) (s : S)
    (x : Stack) : lexemeOf m (.single (.both u st st')) ⟨w ++ '-' :: w', t, n ++ '-' :: n', s, x⟩ =
      (lexemeOf m st ⟨w, t, n, s, x⟩ >>= fun ls => lexemeOf m st' ⟨w', t, n', s, x⟩ >>= fun rs => mapE (mergeForms u ls) rs) := by
  simp only [lexemeOf, Stack.single, ne_eq, not_true_eq_false, if_false, withoutRightPart, withoutLeftPart,
    before_hyphen _ _ hw, before_hyphen _ _ hn, after_hyphen _ _ hw, after_hyphen _ _ hn, ok_bind, pure_eq_ok]

/-- The lexeme is the same, up to scores, from each of its forms; exactly the same if no compound with two inflected
parts is involved; and all forms have the given normal form. -/
def Reprod (m : Morph S) (st : Stack) (w : Str) (t : Tag) (n : Str) : Prop :=
  ∀ s x fs, lexemeOf m st ⟨w, t, n, s, x⟩ = .ok fs → ∀ f ∈ fs, f.nf = n ∧
    ∃ fs', (∀ y, lexemeOf m f.stack ⟨f.word, f.tag, f.nf, f.score, y⟩ = .ok fs') ∧ fs'.map Parse.core = fs.map Parse.core ∧ (st.noBoth → fs' = fs)

theorem core_map_of (fs fs' : List (Parse S)) (g : Parse S → Parse S) (hg : ∀ a b : Parse S, a.core = b.core → (g a).core = (g b).core)
    (h : fs'.map Parse.core = fs.map Parse.core) : (fs'.map g).map Parse.core = (fs.map g).map Parse.core := by
  induction fs generalizing fs' with
  | nil => simp at h; subst h; rfl
  | cons a fs ih =>
    cases fs' with
    | nil => simp at h
    | cons b fs' =>
      simp only [List.map_cons, List.cons.injEq] at h ⊢
      exact ⟨hg _ _ h.1, ih _ h.2⟩

theorem merge_core {u : UObj} {l l' r r' : Parse S} (ht : l.tag = l'.tag) (hw : l.word = l'.word) (hn : l.nf = l'.nf)
    (hs : l.stack = l'.stack) (hr : r.tag = r'.tag) (hrw : r.word = r'.word) (hrn : r.nf = r'.nf) (hrs : r.stack = r'.stack)
    {f : Parse S} (h : mergeForms u [l] r = .ok f) : ∃ f', mergeForms u [l'] r' = .ok f' ∧ f'.core = f.core := by
  have e : formDist l' r' = formDist l r := formDist_congr ht.symm hr.symm
  unfold mergeForms closest closestLoop closestLoop at *
  rw [e]
  split at h
  · simp at h
  · next x hx =>
    split at hx
    · next hlt =>
      simp at hx; subst hx
      simp only [Except.ok.injEq] at h
      subst h
      rw [if_pos hlt]
      exact ⟨_, rfl, by simp [Parse.core, ht, hw, hn, hs, hrw, hrn, hrs]⟩
    · simp at hx

theorem reprod_both (m : Morph S) {st st' : Stack} {w w' n n' : Str} (u : UObj) (t : Tag)
    (hw : '-' ∉ w) (hn : '-' ∉ n) (h1 : DictBased m st w n ∨ PlainBased m st w n) (h2 : DictBased m st' w' n' ∨ PlainBased m st' w' n') :
    Reprod m (.single (.both u st st')) (w ++ '-' :: w') t (n ++ '-' :: n') := by
  intro s x fs hfs f hf
  rw [lexeme_both m _ _ _ _ _ _ _ hw hn] at hfs
  simp only [bind_ok_iff] at hfs
  obtain ⟨ls, hls, rs, hrs, hfs⟩ := hfs
  obtain ⟨r, hr, hfr⟩ := mapE_mem hfs hf
  obtain ⟨l, hl, hfe⟩ := mergeForms_ok hfr
  have hlm := closest_mem hl
  have hnb : ∀ P : Prop, (Stack.single (.both u st st')).noBoth → P := fun P h => h.2.elim
  rcases h1 with ⟨ls0, _, h1, h1'⟩ | h1
  · rw [h1] at hls
    simp only [Except.ok.injEq] at hls
    subst hls
    obtain ⟨a1, a2, a3⟩ := h1' l hlm
    rcases h2 with ⟨rs0, _, h2, h2'⟩ | h2
    · rw [h2] at hrs
      simp only [Except.ok.injEq] at hrs
      subst hrs
      obtain ⟨b1, b2, b3⟩ := h2' r hr
      subst hfe
      refine ⟨by rw [← a1, ← b1], fs, fun y => ?_, rfl, fun _ => rfl⟩
      dsimp only
      rw [a1, b1, lexeme_both m _ _ _ _ _ _ _ a2 hn, a3, ok_bind, b3, ok_bind, hfs]
    · rw [h2] at hrs
      simp only [Except.ok.injEq] at hrs
      subst hrs
      simp only [List.mem_singleton] at hr
      subst hr
      have hfs1 : fs = [f] := by
        simp only [mapE, hfr, ok_bind, pure_eq_ok, Except.ok.injEq] at hfs
        exact hfs.symm
      subst hfs1
      subst hfe
      dsimp only at hl ⊢
      refine ⟨by rw [a1], ?_⟩
      refine ⟨[⟨l.word ++ '-' :: w', l.tag, l.nf ++ '-' :: n', Score.div (Score.add l.score (Score.div (Score.add l.score s)
        (Score.ofNat 2))) (Score.ofNat 2), .single (.both u l.stack st')⟩], fun y => ?_, ?_, hnb _⟩
      · rw [a1, lexeme_both m _ _ _ _ _ _ _ a2 hn, a3, ok_bind, h2, ok_bind]
        simp only [mapE, mergeForms, closest_again (r' := ⟨w', l.tag, n', Score.div (Score.add l.score s) (Score.ofNat 2), st'⟩) hl rfl,
          ok_bind, pure_eq_ok, a1]
      · simp [Parse.core]
  · rw [h1] at hls
    simp only [Except.ok.injEq] at hls
    subst hls
    simp only [List.mem_singleton] at hlm
    subst hlm
    have key : ∀ (sc : S) (rs rs' : List (Parse S)) (fs : List (Parse S)),
        rs'.map Parse.core = rs.map Parse.core → mapE (mergeForms u [⟨w, t, n, s, st⟩]) rs = .ok fs →
        ∃ fs', mapE (mergeForms u [⟨w, t, n, sc, st⟩]) rs' = .ok fs' ∧ fs'.map Parse.core = fs.map Parse.core := by
      intro sc rs
      induction rs with
      | nil => intro rs' fs he hm; simp at he; subst he; simp [mapE] at hm; subst hm; exact ⟨[], rfl, rfl⟩
      | cons a rs ih =>
        intro rs' fs he hm
        cases rs' with
        | nil => simp at he
        | cons b rs' =>
          simp only [List.map_cons, List.cons.injEq] at he
          simp only [mapE, bind_ok_iff, pure_eq_ok, Except.ok.injEq] at hm
          obtain ⟨f, hf, fs, hfs, rfl⟩ := hm
          obtain ⟨fs', hfs', hc⟩ := ih rs' fs he.2 hfs
          have hb := he.1
          simp only [Parse.core, Prod.mk.injEq] at hb
          obtain ⟨f', hf', hcf⟩ := merge_core (u := u) (l := ⟨w, t, n, s, st⟩) (l' := ⟨w, t, n, sc, st⟩) (r := a) (r' := b)
            rfl rfl rfl rfl hb.2.1.symm hb.1.symm hb.2.2.1.symm hb.2.2.2.symm hf
          exact ⟨f' :: fs', by simp [mapE, hf', hfs'], by simp [hcf, hc]⟩
    rcases h2 with ⟨rs0, _, h2, h2'⟩ | h2
    · rw [h2] at hrs
      simp only [Except.ok.injEq] at hrs
      subst hrs
      obtain ⟨b1, b2, b3⟩ := h2' r hr
      subst hfe
      dsimp only
      refine ⟨by rw [b1], ?_⟩
      obtain ⟨fs', e1, e2⟩ := key _ rs0 rs0 fs rfl hfs
      refine ⟨fs', fun y => ?_, e2, hnb _⟩
      rw [b1, lexeme_both m _ _ _ _ _ _ _ hw hn, h1, ok_bind, b3, ok_bind]
      exact e1
    · rw [h2] at hrs
      simp only [Except.ok.injEq] at hrs
      subst hrs
      simp only [List.mem_singleton] at hr
      subst hr
      subst hfe
      dsimp only
      refine ⟨rfl, ?_⟩
      obtain ⟨fs', e1, e2⟩ := key (Score.div (Score.add s s) (Score.ofNat 2)) [⟨w', t, n', s, st'⟩]
        [⟨w', t, n', Score.div (Score.add s s) (Score.ofNat 2), st'⟩] fs rfl hfs
      refine ⟨fs', fun y => ?_, e2, hnb _⟩
      rw [lexeme_both m _ _ _ _ _ _ _ hw hn, h1, ok_bind, h2, ok_bind]
      exact e1

/-- The first-name units of the analyzer keep the genders apart. -/
def Morph.GendersApart (m : Morph S) : Prop := ∀ u ∈ m.units, ∀ letters masc femn score, u.1.cfg = .firstName letters masc femn score →
  (∀ t ∈ masc, c!"masc" ∈ t.grammemes) ∧ ∀ t ∈ femn, c!"masc" ∉ t.grammemes

theorem contains_eq (c : TagCls) (t t' : Tag) (g : Str) (b : Bool) (h : c.contains t g = .ok b) (hg : g ∈ t'.grammemes ↔ g ∈ t.grammemes) :
    c.contains t' g = .ok b := by
  unfold TagCls.contains at *
  simp only [hg]; exact h

/-- The tags of a first-name lexeme lead to the same lexeme. -/
theorem genderTags_again (c : TagCls) (masc femn : List Tag) (h1 : ∀ t ∈ masc, c!"masc" ∈ t.grammemes)
    (h2 : ∀ t ∈ femn, c!"masc" ∉ t.grammemes) (t : Tag) (tags : List Tag) (h : genderTags c masc femn t = .ok tags) (t' : Tag)
    (ht : t' ∈ tags) : genderTags c masc femn t' = .ok tags := by
  unfold genderTags at *
  rw [bind_ok_iff] at h
  obtain ⟨b, hb, h⟩ := h
  have hbt := contains_ok hb
  cases b with
  | true =>
    simp at h; subst h
    rw [contains_eq c t t' _ true hb (by simp [h1 t' ht]; simpa using hbt.symm)]
    rfl
  | false =>
    simp at h; subst h
    rw [contains_eq c t t' _ false hb (by simp [h2 t' ht]; simpa using hbt)]
    rfl

theorem Reprod.push {m : Morph S} {st : Stack} {w n : Str} {t : Tag} (h : Reprod m st w t n) (hst : st ≠ .nil) (x0 : Method)
    (dw : Str → Str) (g : Parse S → Parse S)
    (hstep : ∀ st' ≠ .nil, ∀ w' t' n' s x, lexemeOf m (.push st' x0) ⟨dw w', t', dw n', s, x⟩ =
      (lexemeOf m st' ⟨w', t', n', s, x⟩).map fun fs => fs.map g)
    (hg : ∀ f, g f = ⟨dw f.word, f.tag, dw f.nf, f.score, .push f.stack x0⟩) :
    Reprod m (.push st x0) (dw w) t (dw n) := by
  intro s x fs hfs f hf
  rw [hstep st hst] at hfs
  cases h0 : lexemeOf m st ⟨w, t, n, s, x⟩ with
  | error e => rw [h0] at hfs; simp [Except.map] at hfs
  | ok fs0 =>
    rw [h0] at hfs
    simp only [Except.map, Except.ok.injEq] at hfs
    subst hfs
    obtain ⟨f0, hf0, rfl⟩ := List.mem_map.1 hf
    obtain ⟨e1, fs', e2, e3, e4⟩ := h s x fs0 h0 f0 hf0
    rw [hg f0]
    refine ⟨by simp [e1], fs'.map g, ?_, core_map_of _ _ g ?_ e3, fun hnb => by rw [e4 hnb.1]⟩
    · intro y
      dsimp only
      rw [hstep _ (stack_ne_nil m (e2 .nil)), e2]; rfl
    · intro a b hab
      simp only [Parse.core, Prod.mk.injEq] at hab ⊢
      simp [hg, hab]

theorem Reprod.fixed {m : Morph S} {st : Stack} {w n : Str} {t : Tag} (h : Reprod m st w t n) (u : UObj) (left : Str) :
    Reprod m (.single (.fixed u left st)) (left ++ '-' :: w) t (left ++ '-' :: n) := by
  intro s x fs hfs f hf
  rw [lexeme_fixed] at hfs
  cases h0 : lexemeOf m st ⟨w, t, n, s, x⟩ with
  | error e => rw [h0] at hfs; simp [Except.map] at hfs
  | ok fs0 =>
    rw [h0] at hfs
    simp only [Except.map, Except.ok.injEq] at hfs
    subst hfs
    obtain ⟨f0, hf0, rfl⟩ := List.mem_map.1 hf
    obtain ⟨e1, fs', e2, e3, e4⟩ := h s x fs0 h0 f0 hf0
    refine ⟨by simp [Parse.withPrefix, e1], fs'.map fun f => { f.withPrefix (left ++ ['-']) with stack := .single (.fixed u left f.stack) },
      ?_, core_map_of _ _ _ ?_ e3, fun hnb => by rw [e4 hnb.2]⟩
    · intro y
      simp only [Parse.withPrefix, List.append_assoc, List.singleton_append]
      rw [lexeme_fixed, e2]
      simp [Except.map, Parse.withPrefix]
    · intro a b hab
      simp only [Parse.core, Prod.mk.injEq, Parse.withPrefix] at hab ⊢
      simp [hab]

theorem Deriv.stack_ne {m : Morph S} {wl w nf : Str} {tag : Tag} {st : Stack} (h : Deriv m wl w tag nf st) : st ≠ .nil := by
  cases h <;> simp [Stack.single]

theorem reprod_dict (m : Morph S) (hd : m.dict.WF) (u : UObj) (hu : u.kind = .dict) {para idx : Nat} {pl : List Nat}
    {pre suf : Str} {tag : Tag} (hf : m.dict.IsForm para idx pl pre tag suf) (v w : Str) (t : Tag) (n : Str) :
    Reprod m (.single (.dict u v para idx)) w t n := by
  intro s x fs hfs f hfm
  obtain ⟨stem, fs0, _, _, _, _, h5, h6⟩ := dictBase m hd u hu hf v w n
  rw [h5] at hfs
  simp only [Except.ok.injEq] at hfs
  subst hfs
  obtain ⟨e1, e2⟩ := h6 f hfm
  exact ⟨e1, fs0, fun y => by rw [e1]; exact e2 _ _ _, rfl, fun _ => rfl⟩

theorem reprod_plain {m : Morph S} {st : Stack} {w n : Str} {t : Tag} (h : PlainBased m st w n) : Reprod m st w t n := by
  intro s x fs hfs f hf
  rw [h] at hfs
  simp only [Except.ok.injEq] at hfs
  subst hfs
  simp only [List.mem_singleton] at hf
  subst hf
  exact ⟨rfl, _, fun y => h _ _ _, rfl, fun _ => rfl⟩

/-- What is needed of compounds with both parts inflected. -/
def BothCond (m : Morph S) (st : Stack) : Prop :=
  st.noBoth ∨ (m.dict.HyphenUniform ∧ (∀ c, '-' ∉ m.sub c) ∧ st.bothNoInit)

theorem BothCond.push {m : Morph S} {st : Stack} {x : Method} (h : BothCond m (.push st x)) : BothCond m st :=
  h.imp (fun h => h.1) fun h => ⟨h.1, h.2.1, h.2.2.1⟩

theorem BothCond.fixed {m : Morph S} {st : Stack} {u : UObj} {left : Str} (h : BothCond m (.single (.fixed u left st))) : BothCond m st :=
  h.imp (fun h => h.2) fun h => ⟨h.1, h.2.1, h.2.2.2⟩

/-- Every analysis reproduces its lexeme. -/
theorem deriv_reprod (m : Morph S) (hd : m.dict.WF) (hga : m.GendersApart)
    {wl w nf : Str} {tag : Tag} {st : Stack} (h : Deriv m wl w tag nf st) (hn : BothCond m st) : Reprod m st w tag nf := by
  induction h with
  | dict hsp hw hnf ht =>
    obtain ⟨p, pre, tag, suf, stem, hf, _⟩ := hd.words _ hw
    exact reprod_dict m hd _ rfl hf _ _ _ _
  | @plain wl arg tag u hu hk harg =>
    apply reprod_plain
    intro t s x
    simp only [lexemeOf, Stack.single, BUnit.obj]
    generalize u.1.cfg.kind = k at hk
    cases k <;> simp [UKind.isPlain] at hk <;> rfl
  | @firstName wl arg tag u letters masc femn score hu hk hl ht harg =>
    obtain ⟨g1, g2⟩ := hga u hu _ _ _ _ hk
    intro s x fs hfs f hf
    simp only [lexemeOf, Stack.single, BUnit.obj, hk, UnitCfg.kind, bind_ok_iff, pure_eq_ok, Except.ok.injEq] at hfs
    obtain ⟨tags, ht', rfl⟩ := hfs
    obtain ⟨t', htm, rfl⟩ := List.mem_map.1 hf
    refine ⟨rfl, _, fun y => ?_, rfl, fun _ => rfl⟩
    simp only [lexemeOf, genderTags_again _ _ _ g1 g2 _ _ ht' t' htm, ok_bind, pure_eq_ok]
  | @patronymic wl arg tag u letters tags score hu hk hl ht harg =>
    intro s x fs hfs f hf
    simp only [lexemeOf, Stack.single, BUnit.obj, hk, UnitCfg.kind, Except.ok.injEq] at hfs
    subst hfs
    obtain ⟨t', htm, rfl⟩ := List.mem_map.1 hf
    exact ⟨rfl, _, fun y => rfl, rfl, fun _ => rfl⟩
  | @particle rest part w nf tag st u parts mult hu hk hp hne hpne hd ih =>
    refine (ih hn.push).push hd.stack_ne _ (· ++ part) _ ?_ (fun f => rfl)
    intro st' hst' w' t' n' s x
    exact lexeme_particle m st' hst' _ (by simp [BUnit.obj, hk, UnitCfg.kind]) part w' n' hpne t' s x
  | @fixed left right w nf tag st u skip mult hu hk hl hr hl' hr' hskip hkn hd ih =>
    exact (ih hn.fixed).fixed _ _
  | @both left right w nf w' nf' tag tag' st st' u skip mult hu hk hl hr hl' hr' hskip hkn hsim hd1 hd2 _ _ =>
    rcases hn with hn | ⟨hh, hs, hn⟩
    · exact hn.2.elim
    obtain ⟨a1, a2, a3⟩ := deriv_based m hd hh hs hd1 hl' hn.2.1
    obtain ⟨b1, b2, b3⟩ := deriv_based m hd hh hs hd2 hr' hn.2.2
    exact reprod_both m _ _ a1 a2 a3 b3
  | @pref pre rest w nf tag st u prefixes mult minRem hu hk hp hrem hprod hd ih =>
    refine (ih hn.push).push hd.stack_ne _ (pre ++ ·) _ ?_ (fun f => rfl)
    intro st' hst' w' t' n' s x
    exact lexeme_pref m st' hst' _ (by simp [BUnit.obj, hk, UnitCfg.kind]) pre w' n' t' s x
  | @upref pre rest v nf tag para idx u mult hu hk hne hlen hrem hprod hsp hw hnf ht =>
    obtain ⟨p, pre', tag', suf, stem, hf, _⟩ := hd.words _ hw
    refine (reprod_dict m hd u.1.inner rfl hf v v tag nf).push (by simp [Stack.single]) _ (pre ++ ·) _ ?_ (fun f => rfl)
    intro st' hst' w' t' n' s x
    exact lexeme_pref m st' hst' _ (by simp [BUnit.obj, hk, UnitCfg.kind]) pre w' n' t' s x
  | @suff wl start en e nf tag para idx cnt k t pre u mult minLen hu hk hsplit hprod hsp ht hpre hpw he hnf htag =>
    obtain ⟨_, p, pre', tag', suf, hf, _, _⟩ := hd.pred k t ht _ he
    refine (reprod_dict m hd u.1.inner rfl hf (start ++ e) (start ++ e) tag nf).push (by simp [Stack.single]) _ id _ ?_ (fun f => rfl)
    intro st' hst' w' t' n' s x
    exact lexeme_suff m st' hst' _ (by simp [BUnit.obj, hk, UnitCfg.kind]) e _

/-! ### Initials occur only on their own -/

/-- The letters of the analyzer's initials are not lower-case. -/
def Morph.UpperInitials (m : Morph S) : Prop := ∀ u ∈ m.units, ∀ l : Str,
  ((∃ masc femn score, ∃ letters, u.1.cfg = .firstName letters masc femn score ∧ l ∈ letters) ∨
   (∃ tags score, ∃ letters, u.1.cfg = .patronymic letters tags score ∧ l ∈ letters)) → m.env.lower l ≠ l

theorem unitParse_noInit (m : Morph S) (hup : m.UpperInitials) (rec : Rec S) (u : BUnit S × Bool) (hu : u ∈ m.units) (word wl : Str)
    (hrec : ∀ x : Str, x <:+: wl → ∀ ps, rec.parse x = .ok ps → ∀ p ∈ ps, p.stack.noInit) (seen : Seen) (r : List (Parse S) × Seen)
    (h : unitParse m rec u.1 word wl seen = .ok r) (p : Parse S) (hp : p ∈ r.1) :
    p.stack.noInit ∨ (m.env.lower word ≠ word ∧ p.stack.bothNoInit) := by
  unfold unitParse at h
  split at h
  · left
    simp only [bind_ok_iff, pure_eq_ok, Except.ok.injEq] at h
    obtain ⟨ps, hps, rfl⟩ := h
    obtain ⟨para, idx, h1, h2, h3, h4, _, h5⟩ := dictParse_mem m _ wl ps hps p hp
    rw [h5]; exact ⟨trivial, trivial⟩
  · next letters masc femn score hk =>
    simp only [Except.ok.injEq] at h
    subst h
    dsimp only [initialsParse] at hp
    split at hp
    · next hl =>
      obtain ⟨t, ht, rfl⟩ := List.mem_map.1 hp
      exact .inr ⟨hup u hu word (.inl ⟨_, _, _, _, hk, hl⟩), trivial, trivial⟩
    · simp at hp
  · next letters tags score hk =>
    simp only [Except.ok.injEq] at h
    subst h
    dsimp only [initialsParse] at hp
    split at hp
    · next hl =>
      obtain ⟨t, ht, rfl⟩ := List.mem_map.1 hp
      exact .inr ⟨hup u hu word (.inr ⟨_, _, _, hk, hl⟩), trivial, trivial⟩
    · simp at hp
  iterate 4
    next hk =>
    left
    simp only [bind_ok_iff, pure_eq_ok, Except.ok.injEq] at h
    obtain ⟨t, ht, rfl⟩ := h
    cases t with
    | none => simp [shapeParse] at hp
    | some t =>
      simp only [shapeParse, List.mem_singleton] at hp
      subst hp
      exact ⟨trivial, by simp [Method.noInit, BUnit.obj, hk, UnitCfg.kind, UKind.isInit]⟩
  · next parts mult hk =>
    left
    split at h
    · simp at h; subst h; simp at hp
    · next rest part hsp =>
      simp only [bind_ok_iff, pure_eq_ok, Except.ok.injEq] at h
      obtain ⟨ps, hps, rfl⟩ := h
      obtain ⟨q, hq, rfl⟩ := List.mem_map.1 (addParses_mem hp)
      obtain ⟨hw, _⟩ := particleSplit_some _ _ _ _ hsp
      exact ⟨hrec rest ⟨[], part, by simp [hw]⟩ ps hps q hq, by simp [Method.noInit, BUnit.obj, hk, UnitCfg.kind, UKind.isInit]⟩
  · next tag mult hk =>
    left
    simp only [bind_ok_iff, pure_eq_ok, Except.ok.injEq] at h
    obtain ⟨b, hb, rfl⟩ := h
    cases b with
    | false => simp at hp
    | true =>
      simp at hp; subst hp
      exact ⟨trivial, by simp [Method.noInit, BUnit.obj, hk, UnitCfg.kind, UKind.isInit]⟩
  · next skip mult hk =>
    left
    simp only [bind_ok_iff, pure_eq_ok, Except.ok.injEq] at h
    obtain ⟨ps, hps, rfl⟩ := h
    unfold hyphenParse at hps
    split at hps
    · next hsh =>
      obtain ⟨hw, _⟩ := hyphenShould_split _ _ hsh
      simp only [bind_ok_iff, pure_eq_ok, Except.ok.injEq] at hps
      obtain ⟨lp, hlp, rp, hrp, rfl⟩ := hps
      generalize hA : (splitHyphen wl).1 = left at *
      generalize hB : (splitHyphen wl).2 = right at *
      have il : left <:+: wl := ⟨[], '-' :: right, by simp [hw]⟩
      have ir : right <:+: wl := ⟨left ++ ['-'], [], by simp [hw]⟩
      rcases List.mem_append.1 hp with hp | hp
      · obtain ⟨l, hl1, r, hr1, hkn, hsim, rfl⟩ := parseBoth_mem _ _ _ _ _ hp
        exact ⟨trivial, hrec left il lp hlp l hl1, hrec right ir rp hrp r hr1⟩
      · obtain ⟨r, hr1, hkn, rfl⟩ := parseFixed_mem _ _ _ _ _ hp
        exact ⟨trivial, hrec right ir rp hrp r hr1⟩
    · simp at hps; subst hps; simp at hp
  · next prefixes mult minRem hk =>
    left
    simp only [bind_ok_iff, pure_eq_ok, Except.ok.injEq] at h
    obtain ⟨ps, hps, rfl⟩ := h
    obtain ⟨pre, rest, qs, q, hs, hqs, hq, hprod, rfl⟩ := prefixCands_mem _ _ _ _ _ hps _ (addParses_mem hp)
    obtain ⟨hw, hpp, hrem⟩ := possibleSplits_mem _ _ _ _ _ hs
    exact ⟨hrec rest ⟨pre, [], by simp [hw]⟩ qs hqs q hq, by simp [Method.noInit, BUnit.obj, hk, UnitCfg.kind, UKind.isInit]⟩
  · next mult hk =>
    left
    simp only [bind_ok_iff, pure_eq_ok, Except.ok.injEq] at h
    obtain ⟨ps, hps, rfl⟩ := h
    obtain ⟨pre, rest, qs, q, hs, hqs, hq, hprod, rfl⟩ := prefixCands_mem _ _ _ _ _ hps _ (addParses_mem hp)
    obtain ⟨para, idx, h1, h2, h3, h4, _, h5⟩ := dictParse_mem m _ _ _ hqs q hq
    dsimp only
    rw [h5]
    exact ⟨⟨trivial, trivial⟩, by simp [Method.noInit, BUnit.obj, hk, UnitCfg.kind, UKind.isInit]⟩
  · next mult minLen hk =>
    left
    unfold suffixParse at h
    split at h
    · simp at h; subst h; simp at hp
    · simp only [bind_ok_iff, pure_eq_ok, Except.ok.injEq] at h
      obtain ⟨r', hr', ps, hps, rfl⟩ := h
      have hp := (sortByScore_perm ps).mem_iff.1 hp
      obtain ⟨⟨c, tot⟩, hc, hb⟩ := mapE_mem hps hp
      simp only [sfxBuild, bind_ok_iff, pure_eq_ok, Except.ok.injEq] at hb
      obtain ⟨nf, hnf, rfl⟩ := hb
      exact ⟨⟨trivial, trivial⟩, by simp [Method.noInit, BUnit.obj, hk, UnitCfg.kind, UKind.isInit]⟩
  · next tag hk =>
    left
    simp only [Except.ok.injEq] at h
    subst h
    dsimp only at hp
    split at hp
    · simp at hp; subst hp
      exact ⟨trivial, by simp [Method.noInit, BUnit.obj, hk, UnitCfg.kind, UKind.isInit]⟩
    · simp at hp

theorem analyze_bothNoInit (m : Morph S) (hlow : m.env.LowerStable) (hup : m.UpperInitials) (n : Nat) (w : Str) (ps : List (Parse S))
    (h : (analyze m n).parse w = .ok ps) (p : Parse S) (hp : p ∈ ps) :
    p.stack.bothNoInit ∧ (m.env.lower w = w → p.stack.noInit) := by
  induction n generalizing w ps p with
  | zero => simp [analyze] at h
  | succ n ih =>
    have h : parseStep m (analyze m n) w = .ok ps := h
    obtain ⟨u, hu, seen, r, hr, q, hq, he⟩ := parseStep_mem_core m _ w ps h p hp
    have := unitParse_noInit m hup (analyze m n) u hu w _ ?_ seen r hr q hq
    · simp only [Parse.core, Prod.mk.injEq] at he
      obtain ⟨h1, h2, h3, h4⟩ := he
      rw [← h4]
      rcases this with h | ⟨h, h'⟩
      · exact ⟨Stack.noInit_bothNoInit _ h, fun _ => h⟩
      · exact ⟨h', fun e => absurd e h⟩
    · intro x hx qs hqs q' hq'
      exact (ih x qs hqs q' hq').2 (hlow w x hx)

end Verif
