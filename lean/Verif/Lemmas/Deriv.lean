/-
A score-free inductive description of everything `parse` can return, and the proof that every result fits it.
This is a proof device: property statements do not mention it.
-/
import Verif.Lemmas.Run

set_option linter.unusedSectionVars false

namespace Verif

variable {S : Type} [Score S]

/-- Units whose only method is `simple` and whose lexeme is the form itself. -/
def UKind.isPlain : UKind → Bool
  | .shape | .adverb | .unkn => true
  | _ => false

/-- The tags a unit of these classes can give. -/
def UnitCfg.ownTags : UnitCfg S → List Tag
  | .number a b _ => [a, b]
  | .punct t _ | .latin t _ | .roman t _ | .adverb t _ | .unkn t => [t]
  | _ => []

theorem shapeTag_own (e : Env) (c : UnitCfg S) (w : Str) (t : Tag) (h : shapeTag e c w = .ok (some t)) : t ∈ c.ownTags := by
  cases c with
  | number a b _ =>
    simp only [shapeTag, numberShape, Except.ok.injEq] at h
    split at h
    · simp only [Option.some.injEq] at h; simp [UnitCfg.ownTags, h]
    · split at h
      · simp only [Option.some.injEq] at h; simp [UnitCfg.ownTags, h]
      · cases h
  | punct _ _ | roman _ _ =>
    simp only [shapeTag, Except.ok.injEq] at h
    split at h
    · simp only [Option.some.injEq] at h; simp [UnitCfg.ownTags, h]
    · cases h
  | latin _ _ =>
    simp only [shapeTag, bind_ok_iff, pure_eq_ok, Except.ok.injEq] at h
    obtain ⟨b, _, h⟩ := h
    split at h
    · simp only [Option.some.injEq] at h; simp [UnitCfg.ownTags, h]
    · cases h
  | _ => simp [shapeTag] at h

/-- `Deriv m wl word tag nf stack`: an analysis of the lower-cased word `wl`. -/
inductive Deriv (m : Morph S) : Str → Str → Tag → Str → Stack → Prop
  | dict {wl v : Str} {para idx n : Nat} {tag : Tag} {nf : Str}
      (hs : Spells m.sub wl v) (hw : (v, (para, idx)) ∈ m.dict.words)
      (hnf : m.dict.normalForm para idx v = .ok nf) (ht : m.dict.tagInfo para idx = .ok tag) :
      Deriv m wl v tag nf (.single (.dict ⟨n, .dict⟩ v para idx))
  | plain {wl arg : Str} {tag : Tag} {u : BUnit S × Bool} (hu : u ∈ m.units) (hk : u.1.cfg.kind.isPlain = true)
      (harg : m.env.lower arg = wl) (ht : tag ∈ u.1.cfg.ownTags) :
      Deriv m wl wl tag wl (.single (.simple u.1.obj arg))
  | firstName {wl arg : Str} {tag : Tag} {u : BUnit S × Bool} {letters masc femn score} (hu : u ∈ m.units)
      (hk : u.1.cfg = .firstName letters masc femn score) (hl : arg ∈ letters) (ht : tag ∈ masc ++ femn)
      (harg : m.env.lower arg = wl) :
      Deriv m wl wl tag wl (.single (.simple u.1.obj arg))
  | patronymic {wl arg : Str} {tag : Tag} {u : BUnit S × Bool} {letters tags score} (hu : u ∈ m.units)
      (hk : u.1.cfg = .patronymic letters tags score) (hl : arg ∈ letters) (ht : tag ∈ tags)
      (harg : m.env.lower arg = wl) :
      Deriv m wl wl tag wl (.single (.simple u.1.obj arg))
  | particle {rest part w nf : Str} {tag : Tag} {st : Stack} {u : BUnit S × Bool} {parts mult} (hu : u ∈ m.units)
      (hk : u.1.cfg = .particle parts mult) (hp : part ∈ parts) (hne : rest ≠ []) (hpne : part ≠ [])
      (hd : Deriv m rest w tag nf st) :
      Deriv m (rest ++ part) (w ++ part) tag (nf ++ part) (.push st (.simple u.1.obj part))
  | fixed {left right w nf : Str} {tag : Tag} {st : Stack} {u : BUnit S × Bool} {skip mult} (hu : u ∈ m.units)
      (hk : u.1.cfg = .hyphenated skip mult) (hl : left ≠ []) (hr : right ≠ [])
      (hl' : '-' ∉ left) (hr' : '-' ∉ right) (hskip : isPrefixed skip (left ++ '-' :: right) = false)
      (hkn : tag.isUnknown = false) (hd : Deriv m right w tag nf st) :
      Deriv m (left ++ '-' :: right) (left ++ '-' :: w) tag (left ++ '-' :: nf)
        (.single (.fixed u.1.obj left st))
  | both {left right w nf w' nf' : Str} {tag tag' : Tag} {st st' : Stack} {u : BUnit S × Bool} {skip mult}
      (hu : u ∈ m.units)
      (hk : u.1.cfg = .hyphenated skip mult) (hl : left ≠ []) (hr : right ≠ [])
      (hl' : '-' ∉ left) (hr' : '-' ∉ right) (hskip : isPrefixed skip (left ++ '-' :: right) = false)
      (hkn : tag.isUnknown = false)
      (hsim : similarityFeatures tag = similarityFeatures tag')
      (hd : Deriv m left w tag nf st) (hd' : Deriv m right w' tag' nf' st') :
      Deriv m (left ++ '-' :: right) (w ++ '-' :: w') tag (nf ++ '-' :: nf')
        (.single (.both u.1.obj st st'))
  | pref {pre rest w nf : Str} {tag : Tag} {st : Stack} {u : BUnit S × Bool} {prefixes mult minRem}
      (hu : u ∈ m.units) (hk : u.1.cfg = .knownPrefix prefixes mult minRem) (hp : pre ∈ prefixes)
      (hrem : minRem ≤ rest.length)
      (hprod : tag.isProductive = true) (hd : Deriv m rest w tag nf st) :
      Deriv m (pre ++ rest) (pre ++ w) tag (pre ++ nf) (.push st (.simple u.1.obj pre))
  | upref {pre rest v nf : Str} {tag : Tag} {para idx : Nat} {u : BUnit S × Bool} {mult} (hu : u ∈ m.units)
      (hk : u.1.cfg = .unknownPrefix mult) (hne : pre ≠ []) (hlen : pre.length ≤ 5) (hrem : 3 ≤ rest.length)
      (hprod : tag.isProductive = true)
      (hs : Spells m.sub rest v) (hw : (v, (para, idx)) ∈ m.dict.words)
      (hnf : m.dict.normalForm para idx v = .ok nf) (ht : m.dict.tagInfo para idx = .ok tag) :
      Deriv m (pre ++ rest) (pre ++ v) tag (pre ++ nf)
        (.push (.single (.dict u.1.inner v para idx)) (.simple u.1.obj pre))
  | suff {wl start en e nf : Str} {tag : Tag} {para idx cnt k : Nat} {t : Dawg (Nat × Nat × Nat)} {pre : Str}
      {u : BUnit S × Bool} {mult minLen}
      (hu : u ∈ m.units) (hk : u.1.cfg = .knownSuffix mult minLen) (hsplit : wl = start ++ en)
      (hprod : tag.isProductive = true) (hs : Spells m.sub en e)
      (ht : m.dict.pred[k]? = some t) (hpre : m.dict.prefixes[k]? = some pre) (hpw : pre <+: wl)
      (he : (e, (cnt, para, idx)) ∈ t)
      (hnf : m.dict.normalForm para idx (start ++ e) = .ok nf) (htag : m.dict.tagInfo para idx = .ok tag) :
      Deriv m wl (start ++ e) tag nf
        (.push (.single (.dict u.1.inner (start ++ e) para idx)) (.simple u.1.obj e))

/-! ### What the helper functions return -/

theorem dictParse_mem (m : Morph S) (u : UObj) (wl : Str) (ps : List (Parse S)) (h : dictParse m u wl = .ok ps)
    (p : Parse S) (hp : p ∈ ps) :
    ∃ para idx, Spells m.sub wl p.word ∧ (p.word, (para, idx)) ∈ m.dict.words ∧
      m.dict.normalForm para idx p.word = .ok p.nf ∧ m.dict.tagInfo para idx = .ok p.tag ∧
      p.score = Score.one ∧ p.stack = .single (.dict u p.word para idx) := by
  unfold dictParse at h
  obtain ⟨⟨v, para, idx⟩, ha, hf⟩ := mapE_mem h hp
  rw [mem_lookup] at ha
  simp only [dictParse1, bind_ok_iff, pure_eq_ok, Except.ok.injEq] at hf
  obtain ⟨nf, hnf, tag, ht, rfl⟩ := hf
  exact ⟨para, idx, ha.1, ha.2, hnf, ht, rfl, rfl⟩

theorem endsWith_dropRight (w p : Str) (h : endsWith w p = true) (hp : p ≠ []) :
    w = dropRight w p.length ++ p := by
  rw [endsWith_iff] at h
  obtain ⟨t, rfl⟩ := h
  unfold dropRight
  rw [if_neg (by simpa using hp)]
  simp

theorem particleSplit_some (parts : List Str) (w rest part : Str)
    (h : particleSplit parts w = some (rest, part)) :
    w = rest ++ part ∧ part ∈ parts ∧ rest ≠ [] ∧ part ≠ [] ∧ '-' ∈ w := by
  unfold particleSplit at h
  split at h
  · next hy =>
    obtain ⟨p, hp, h⟩ := List.exists_of_findSome?_eq_some h
    split at h
    · next he =>
      dsimp only at h
      split at h
      · simp at h
      · next hne =>
        simp only [Option.some.injEq, Prod.mk.injEq] at h
        obtain ⟨rfl, rfl⟩ := h
        have hpne : p ≠ [] := by
          rintro rfl; simp [dropRight] at hne
        exact ⟨endsWith_dropRight w p he hpne, hp, hne, hpne, hy⟩
    · simp at h
  · simp at h

theorem possibleSplits_mem (prefixes : List Str) (k : Nat) (w pre rest : Str)
    (h : (pre, rest) ∈ possibleSplits prefixes k w) :
    w = pre ++ rest ∧ pre ∈ prefixes ∧ k ≤ rest.length := by
  unfold possibleSplits at h
  simp only [List.mem_filter, List.mem_map, List.mem_insertionSort, Prod.mk.injEq, decide_eq_true_eq] at h
  obtain ⟨⟨p, hp, rfl, rfl⟩, hk⟩ := h
  unfold matchPrefixes at hp
  split at hp
  · rw [List.mem_filter, startsWith_iff] at hp
    obtain ⟨t, rfl⟩ := hp.2
    exact ⟨by simp, hp.1, hk⟩
  · simp at hp

theorem wordSplits_mem (w a b : Str) (h : (a, b) ∈ wordSplits w) :
    w = a ++ b ∧ a ≠ [] ∧ a.length ≤ 5 ∧ 3 ≤ b.length := by
  unfold wordSplits at h
  simp only [List.mem_map, List.mem_range, Prod.mk.injEq] at h
  obtain ⟨i, hi, rfl, rfl⟩ := h
  refine ⟨(List.take_append_drop _ _).symm, ?_, ?_, ?_⟩
  · intro e
    have := congrArg List.length e
    simp only [List.length_take, List.length_nil] at this
    omega
  · simp only [List.length_take]; omega
  · simp only [List.length_drop]; omega

theorem prefixCands_mem (u : UObj) (mult : S) (f : Str → Except PyErr (List (Parse S))) (sp : List (Str × Str))
    (ps : List (Parse S)) (h : prefixCands u mult f sp = .ok ps) (p : Parse S) (hp : p ∈ ps) :
    ∃ pre rest qs q, (pre, rest) ∈ sp ∧ f rest = .ok qs ∧ q ∈ qs ∧ q.tag.isProductive = true ∧
      p = ⟨pre ++ q.word, q.tag, pre ++ q.nf, Score.mul q.score mult, .push q.stack (.simple u pre)⟩ := by
  simp only [prefixCands, bind_ok_iff, pure_eq_ok, Except.ok.injEq] at h
  obtain ⟨ls, hls, rfl⟩ := h
  obtain ⟨l, hl, hpl⟩ := List.mem_flatten.1 hp
  obtain ⟨⟨pre, rest⟩, hs, hf⟩ := mapE_mem hls hl
  simp only [bind_ok_iff, Except.ok.injEq] at hf
  obtain ⟨qs, hqs, rfl⟩ := hf
  simp only [prefixDeco, List.mem_map, List.mem_filter] at hpl
  obtain ⟨q, ⟨hq, hprod⟩, rfl⟩ := hpl
  exact ⟨pre, rest, qs, q, hs, hqs, hq, hprod, rfl⟩

/-- The shape of a word that the hyphen unit accepts. -/
theorem hyphenShould_split (skip : List Str) (w : Str) (h : hyphenShould skip w = true) :
    w = (splitHyphen w).1 ++ '-' :: (splitHyphen w).2 ∧ (splitHyphen w).1 ≠ [] ∧ (splitHyphen w).2 ≠ [] ∧
      '-' ∉ (splitHyphen w).1 ∧ '-' ∉ (splitHyphen w).2 ∧ isPrefixed skip w = false := by
  unfold hyphenShould at h
  split at h
  swap; · simp at h
  next hy =>
  dsimp only at h
  split at h; · simp at h
  next hs =>
  simp only [ne_eq, Decidable.not_not] at hs
  split at h; · simp at h
  next hc =>
  simp only [ne_eq, Decidable.not_not] at hc
  split at h; · simp at h
  next hp =>
  have hd : w.takeWhile (· ≠ '-') ++ w.dropWhile (· ≠ '-') = w := List.takeWhile_append_dropWhile
  have hl : '-' ∉ w.takeWhile (· ≠ '-') := fun hm => by
    have := List.all_takeWhile (l := w) (p := fun x : Char => decide (x ≠ '-'))
    simpa using List.all_eq_true.1 this _ hm
  have hdne : w.dropWhile (· ≠ '-') ≠ [] := by
    intro e; rw [e, List.append_nil] at hd; rw [hd] at hl; exact hl hy
  obtain ⟨c, t, hct⟩ := List.exists_cons_of_ne_nil hdne
  have hc' : c = '-' := by
    have := List.head_dropWhile_not (p := fun x : Char => decide (x ≠ '-')) (l := w) hdne
    simp only [hct, List.head_cons] at this
    simpa using this
  subst hc'
  have hw : w = w.takeWhile (· ≠ '-') ++ '-' :: t := by rw [← hct, hd]
  have e1 : (splitHyphen w).1 = w.takeWhile (· ≠ '-') := rfl
  have e2 : (splitHyphen w).2 = t := by
    show (w.dropWhile (· ≠ '-')).drop 1 = t
    rw [hct]; rfl
  rw [e1, e2]
  generalize w.takeWhile (· ≠ '-') = l at *
  have ht : '-' ∉ t := by
    rw [hs, hw, List.count_append, List.count_cons_self] at hc
    have : List.count '-' t = 0 := by omega
    exact List.count_eq_zero.1 this
  refine ⟨hw, ?_, ?_, hl, ht, by simpa using hp⟩
  · rintro rfl
    rw [hw] at hs
    have := congrArg List.length hs
    simp only [stripC, List.nil_append, List.length_reverse] at this
    have h1 := (List.dropWhile_suffix (l := ('-' :: t).dropWhile (· == '-') |>.reverse) (· == '-')).length_le
    rw [List.length_reverse, List.dropWhile_cons_of_pos (by simp)] at h1
    have h2 := (List.dropWhile_suffix (l := t) (· == '-')).length_le
    rw [List.dropWhile_cons_of_pos (by simp)] at this
    rw [this, List.length_cons] at h1
    omega
  · rintro rfl
    have h1 : stripC '-' w <:+: w := by
      unfold stripC
      have a1 := List.dropWhile_suffix (l := w) (· == '-')
      have a2 := List.dropWhile_suffix (l := (w.dropWhile (· == '-')).reverse) (· == '-')
      have a3 := List.reverse_prefix.2 a2
      rw [List.reverse_reverse] at a3
      exact a3.isInfix.trans a1.isInfix
    -- the stripped string does not end with a hyphen
    have h2 : stripC '-' w ≠ [] → (stripC '-' w).getLast? ≠ some '-' := by
      unfold stripC
      intro _ e
      rw [List.getLast?_reverse] at e
      cases hh : (w.dropWhile (· == '-')).reverse.dropWhile (· == '-') with
      | nil => simp [hh] at e
      | cons x xs =>
        have hne : (w.dropWhile (· == '-')).reverse.dropWhile (· == '-') ≠ [] := by simp [hh]
        have := List.head_dropWhile_not (p := fun x : Char => x == '-')
          (l := (w.dropWhile (· == '-')).reverse) hne
        simp only [hh, List.head_cons] at this
        simp [hh] at e
        simp [e] at this
    rw [hs] at h2
    refine h2 ?_ ?_
    · rw [hw]; simp
    · rw [hw]; simp

theorem parseBoth_mem (u : UObj) (mult : S) (lp rp : List (Parse S)) (p : Parse S) (h : p ∈ parseBoth u mult lp rp) :
    ∃ l ∈ lp, ∃ r ∈ rp, l.tag.isUnknown = false ∧ similarityFeatures l.tag = similarityFeatures r.tag ∧
      p = ⟨l.word ++ '-' :: r.word, l.tag, l.nf ++ '-' :: r.nf, Score.mul l.score mult,
          .single (.both u l.stack r.stack)⟩ := by
  simp only [parseBoth, List.mem_flatMap] at h
  obtain ⟨l, hl, h⟩ := h
  split at h
  · simp at h
  · next hu =>
    simp only [List.mem_map, List.mem_filter, decide_eq_true_eq] at h
    obtain ⟨r, ⟨hr, hs⟩, rfl⟩ := h
    exact ⟨l, hl, r, hr, by simpa using hu, hs, rfl⟩

theorem parseFixed_mem (u : UObj) (mult : S) (left : Str) (rp : List (Parse S)) (p : Parse S)
    (h : p ∈ parseFixed u mult left rp) :
    ∃ r ∈ rp, r.tag.isUnknown = false ∧
      p = ⟨left ++ '-' :: r.word, r.tag, left ++ '-' :: r.nf, Score.mul r.score mult,
          .single (.fixed u left r.stack)⟩ := by
  simp only [parseFixed, List.mem_map, List.mem_filter, Bool.not_eq_eq_eq_not] at h
  obtain ⟨r, ⟨hr, hs⟩, rfl⟩ := h
  exact ⟨r, hr, by simpa using hs, rfl⟩

theorem sfxLoop_mem (cands : Nat → Except PyErr (List SfxCand)) (is : List Nat) (total : Nat) (seen : Seen)
    (r : List SfxCand × Nat × Seen) (h : sfxLoop cands is total seen = .ok r) (c : SfxCand) (hc : c ∈ r.1) :
    ∃ i ∈ is, ∃ cs, cands i = .ok cs ∧ c ∈ cs := by
  induction is generalizing total seen r with
  | nil => simp [sfxLoop] at h; subst h; simp at hc
  | cons i is ih =>
    rw [sfxLoop, bind_ok_iff] at h
    obtain ⟨cs, hcs, h⟩ := h
    dsimp only at h
    split at h
    · simp at h; subst h
      exact ⟨i, by simp, cs, hcs, (dedupCands_sub _ _).subset hc⟩
    · simp only [bind_ok_iff, pure_eq_ok, Except.ok.injEq] at h
      obtain ⟨r', hr', rfl⟩ := h
      rcases List.mem_append.1 hc with hc | hc
      · exact ⟨i, by simp, cs, hcs, (dedupCands_sub _ _).subset hc⟩
      · obtain ⟨j, hj, h'⟩ := ih _ _ _ hr' hc
        exact ⟨j, by simp [hj], h'⟩

theorem sfxPrefixLoop_mem (d : Dict) (sub : Subst) (wl : Str) (ips : List (Nat × Str)) (seen : Seen)
    (r : List (SfxCand × Nat) × Seen) (h : sfxPrefixLoop d sub wl ips seen = .ok r) (c : SfxCand × Nat)
    (hc : c ∈ r.1) :
    ∃ ip ∈ ips, ∃ t, d.pred[ip.1]? = some t ∧ ∃ i ∈ predictionSplits d.maxSuffixLength, ∃ cs,
      sfxCands d sub t wl i = .ok cs ∧ c.1 ∈ cs := by
  induction ips generalizing seen r with
  | nil => simp [sfxPrefixLoop] at h; subst h; simp at hc
  | cons ip ips ih =>
    simp only [sfxPrefixLoop, bind_ok_iff, pure_eq_ok, Except.ok.injEq, pyGet_ok_iff] at h
    obtain ⟨t, ht, r1, hr1, r2, hr2, rfl⟩ := h
    rcases List.mem_append.1 hc with hc | hc
    · obtain ⟨c', hc', rfl⟩ := List.mem_map.1 hc
      obtain ⟨i, hi, h'⟩ := sfxLoop_mem _ _ _ _ _ hr1 c' hc'
      exact ⟨ip, by simp, t, ht, i, hi, h'⟩
    · obtain ⟨ip', h1, h2⟩ := ih _ _ hr2 hc
      exact ⟨ip', by simp [h1], h2⟩

theorem mem_predictionSplits (n i : Nat) : i ∈ predictionSplits n ↔ 1 ≤ i ∧ i ≤ n := by
  unfold predictionSplits
  simp only [List.mem_reverse, List.mem_map, List.mem_range]
  constructor
  · rintro ⟨j, hj, rfl⟩; omega
  · rintro ⟨h1, h2⟩; exact ⟨i - 1, by omega, by omega⟩

theorem mem_sfxPrefixes (d : Dict) (wl : Str) (ip : Nat × Str) :
    ip ∈ sfxPrefixes d wl ↔ d.prefixes[ip.1]? = some ip.2 ∧ ip.2 <+: wl := by
  unfold sfxPrefixes paradigmPrefixes
  rw [List.mem_filter, startsWith_iff, List.mem_reverse, List.mem_mapIdx]
  constructor
  · rintro ⟨⟨i, hi, rfl⟩, h⟩
    exact ⟨by simp, h⟩
  · rintro ⟨h1, h2⟩
    refine ⟨?_, h2⟩
    obtain ⟨hi, he⟩ := List.getElem?_eq_some_iff.1 h1
    exact ⟨ip.1, hi, by rw [he]⟩

theorem sfxCands_mem (d : Dict) (sub : Subst) (t : Dawg (Nat × Nat × Nat)) (wl : Str) (i : Nat)
    (cs : List SfxCand) (h : sfxCands d sub t wl i = .ok cs) (c : SfxCand) (hc : c ∈ cs) :
    c.tag.isProductive = true ∧ d.tagInfo c.para c.idx = .ok c.tag ∧ c.word = dropRight wl i ++ c.suffix ∧
      Spells sub (takeRight wl i) c.suffix ∧ (c.suffix, (c.cnt, c.para, c.idx)) ∈ t := by
  simp only [sfxCands, bind_ok_iff, pure_eq_ok, Except.ok.injEq] at h
  obtain ⟨cs', hcs', rfl⟩ := h
  obtain ⟨hc, hp⟩ := List.mem_filter.1 hc
  obtain ⟨⟨e, cnt, para, idx⟩, he, hf⟩ := mapE_mem hcs' hc
  simp only [bind_ok_iff, Except.ok.injEq] at hf
  obtain ⟨tag, ht, rfl⟩ := hf
  rw [mem_lookup] at he
  exact ⟨hp, ht, rfl, he.1, he.2⟩

theorem dropRight_takeRight (w : Str) (i : Nat) (h : 1 ≤ i) : dropRight w i ++ takeRight w i = w := by
  unfold dropRight takeRight
  rw [if_neg (by omega), if_neg (by omega)]
  exact List.take_append_drop _ _

/-! ### Every result is derivable -/

/-- What `rec.parse` may be assumed to return on a substring of the word. -/
def RecDeriv (m : Morph S) (wl : Str) (rec : Rec S) : Prop :=
  ∀ x : Str, x <:+: wl → ∀ ps, rec.parse x = .ok ps → ∀ p ∈ ps, Deriv m x p.word p.tag p.nf p.stack

theorem unitParse_deriv (m : Morph S) (rec : Rec S) (u : BUnit S × Bool) (hu : u ∈ m.units) (word wl : Str)
    (hwl : m.env.lower word = wl) (hrec : RecDeriv m wl rec) (seen : Seen) (r : List (Parse S) × Seen)
    (h : unitParse m rec u.1 word wl seen = .ok r) (p : Parse S) (hp : p ∈ r.1) :
    Deriv m wl p.word p.tag p.nf p.stack := by
  unfold unitParse at h
  split at h
  · -- dictionary
    next hk =>
    simp only [bind_ok_iff, pure_eq_ok, Except.ok.injEq] at h
    obtain ⟨ps, hps, rfl⟩ := h
    obtain ⟨para, idx, h1, h2, h3, h4, _, h5⟩ := dictParse_mem m _ wl ps hps p hp
    rw [h5]
    have : u.1.obj = ⟨2 * u.1.id, .dict⟩ := by simp [BUnit.obj, hk, UnitCfg.kind]
    rw [this]
    exact .dict h1 h2 h3 h4
  · next letters masc femn score hk =>
    simp only [Except.ok.injEq] at h
    subst h
    dsimp only [initialsParse] at hp
    split at hp
    · next hl =>
      obtain ⟨t, ht, rfl⟩ := List.mem_map.1 hp
      exact .firstName hu hk hl ht hwl
    · simp at hp
  · next letters tags score hk =>
    simp only [Except.ok.injEq] at h
    subst h
    dsimp only [initialsParse] at hp
    split at hp
    · next hl =>
      obtain ⟨t, ht, rfl⟩ := List.mem_map.1 hp
      exact .patronymic hu hk hl ht hwl
    · simp at hp
  -- four shape units
  iterate 4
    next hk =>
    simp only [bind_ok_iff, pure_eq_ok, Except.ok.injEq] at h
    obtain ⟨t, ht, rfl⟩ := h
    cases t with
    | none => simp [shapeParse] at hp
    | some t =>
      simp only [shapeParse, List.mem_singleton] at hp
      subst hp
      exact .plain hu (by simp [hk, UnitCfg.kind, UKind.isPlain]) hwl (shapeTag_own _ _ _ _ ht)
  · -- particle
    next parts mult hk =>
    split at h
    · simp at h; subst h; simp at hp
    · next rest part hsp =>
      simp only [bind_ok_iff, pure_eq_ok, Except.ok.injEq] at h
      obtain ⟨ps, hps, rfl⟩ := h
      obtain ⟨q, hq, rfl⟩ := List.mem_map.1 (addParses_mem hp)
      obtain ⟨hw, hpp, hne, hpne, _⟩ := particleSplit_some _ _ _ _ hsp
      rw [hw]
      exact .particle hu hk hpp hne hpne
        (hrec rest ⟨[], part, by simp [hw]⟩ ps hps q hq)
  · -- adverb
    next tag mult hk =>
    simp only [bind_ok_iff, pure_eq_ok, Except.ok.injEq] at h
    obtain ⟨b, hb, rfl⟩ := h
    cases b with
    | false => simp at hp
    | true =>
      simp at hp; subst hp
      exact .plain hu (by simp [hk, UnitCfg.kind, UKind.isPlain]) hwl (by simp [hk, UnitCfg.ownTags])
  · -- hyphenated
    next skip mult hk =>
    simp only [bind_ok_iff, pure_eq_ok, Except.ok.injEq] at h
    obtain ⟨ps, hps, rfl⟩ := h
    unfold hyphenParse at hps
    split at hps
    · next hsh =>
      obtain ⟨hw, hl, hr, hl', hr', hsk⟩ := hyphenShould_split _ _ hsh
      simp only [bind_ok_iff, pure_eq_ok, Except.ok.injEq] at hps
      obtain ⟨lp, hlp, rp, hrp, rfl⟩ := hps
      generalize hA : (splitHyphen wl).1 = left at *
      generalize hB : (splitHyphen wl).2 = right at *
      have il : left <:+: wl := ⟨[], '-' :: right, by simp [hw]⟩
      have ir : right <:+: wl := ⟨left ++ ['-'], [], by simp [hw]⟩
      rcases List.mem_append.1 hp with hp | hp
      · obtain ⟨l, hl1, r, hr1, hkn, hsim, rfl⟩ := parseBoth_mem _ _ _ _ _ hp
        rw [hw]; rw [hw] at hsk
        exact .both hu hk hl hr hl' hr' hsk hkn hsim (hrec left il lp hlp l hl1) (hrec right ir rp hrp r hr1)
      · obtain ⟨r, hr1, hkn, rfl⟩ := parseFixed_mem _ _ _ _ _ hp
        rw [hw]; rw [hw] at hsk
        exact .fixed hu hk hl hr hl' hr' hsk hkn (hrec right ir rp hrp r hr1)
    · simp at hps; subst hps; simp at hp
  · -- known prefix
    next prefixes mult minRem hk =>
    simp only [bind_ok_iff, pure_eq_ok, Except.ok.injEq] at h
    obtain ⟨ps, hps, rfl⟩ := h
    obtain ⟨pre, rest, qs, q, hs, hqs, hq, hprod, rfl⟩ := prefixCands_mem _ _ _ _ _ hps _ (addParses_mem hp)
    obtain ⟨hw, hpp, hrem⟩ := possibleSplits_mem _ _ _ _ _ hs
    have ir : rest <:+: wl := ⟨pre, [], by simp [hw]⟩
    rw [hw]
    exact .pref hu hk hpp hrem hprod (hrec rest ir qs hqs q hq)
  · -- unknown prefix
    next mult hk =>
    simp only [bind_ok_iff, pure_eq_ok, Except.ok.injEq] at h
    obtain ⟨ps, hps, rfl⟩ := h
    obtain ⟨pre, rest, qs, q, hs, hqs, hq, hprod, rfl⟩ := prefixCands_mem _ _ _ _ _ hps _ (addParses_mem hp)
    obtain ⟨hw, hne, hlen, hrem⟩ := wordSplits_mem _ _ _ hs
    obtain ⟨para, idx, h1, h2, h3, h4, _, h5⟩ := dictParse_mem m _ _ _ hqs q hq
    dsimp only
    rw [hw, h5]
    exact .upref hu hk hne hlen hrem hprod h1 h2 h3 h4
  · -- known suffix
    next mult minLen hk =>
    unfold suffixParse at h
    split at h
    · simp at h; subst h; simp at hp
    · simp only [bind_ok_iff, pure_eq_ok, Except.ok.injEq] at h
      obtain ⟨r', hr', ps, hps, rfl⟩ := h
      have hp := (sortByScore_perm ps).mem_iff.1 hp
      obtain ⟨⟨c, tot⟩, hc, hb⟩ := mapE_mem hps hp
      obtain ⟨ip, hip, t, ht, i, hi, cs, hcs, hcc⟩ := sfxPrefixLoop_mem _ _ _ _ _ _ hr' _ hc
      simp only [sfxBuild, bind_ok_iff, pure_eq_ok, Except.ok.injEq] at hb
      obtain ⟨nf, hnf, rfl⟩ := hb
      obtain ⟨h1, h2, h3, h4, h5⟩ := sfxCands_mem _ _ _ _ _ _ hcs _ hcc
      obtain ⟨h6, h7⟩ := (mem_sfxPrefixes _ _ _).1 hip
      dsimp only at h1 h2 h3 h4 h5 hnf ⊢
      rw [h3] at hnf ⊢
      exact .suff hu hk (dropRight_takeRight wl i ((mem_predictionSplits _ _).1 hi).1).symm h1 h4 ht h6 h7 h5 hnf h2
  · -- unknown
    next tag hk =>
    simp only [Except.ok.injEq] at h
    subst h
    dsimp only at hp
    split at hp
    · simp at hp; subst hp
      exact .plain hu (by simp [hk, UnitCfg.kind, UKind.isPlain]) hwl (by simp [hk, UnitCfg.ownTags])
    · simp at hp

/-- Every result of `parse`, at every recursion budget, is derivable. -/
theorem analyze_deriv (m : Morph S) (hlow : m.env.LowerStable) (n : Nat) (w : Str) (ps : List (Parse S))
    (h : (analyze m n).parse w = .ok ps) (p : Parse S) (hp : p ∈ ps) :
    Deriv m (m.env.lower w) p.word p.tag p.nf p.stack := by
  induction n generalizing w ps p with
  | zero => simp [analyze] at h
  | succ n ih =>
    have h : parseStep m (analyze m n) w = .ok ps := h
    obtain ⟨u, hu, seen, r, hr, q, hq, he⟩ := parseStep_mem_core m _ w ps h p hp
    have := unitParse_deriv m (analyze m n) u hu w _ rfl ?_ seen r hr q hq
    · simp only [Parse.core, Prod.mk.injEq] at he
      obtain ⟨h1, h2, h3, h4⟩ := he
      rw [← h1, ← h2, ← h3, ← h4]; exact this
    · intro x hx qs hqs q' hq'
      have := ih x qs hqs q' hq'
      rwa [hlow w x hx] at this

end Verif
