/-
No unit raises, and all scores are positive, when nested calls behave.
-/
import Verif.Lemmas.Fuel
import Verif.Props.C10
import Verif.Spec.Scores
import Mathlib.Algebra.Order.Field.Rat
import Mathlib.Tactic.Positivity
import Mathlib.Algebra.Order.BigOperators.Group.List
import Mathlib.Tactic.Linarith

set_option linter.unusedSectionVars false

namespace Verif

section generic

variable {S : Type} [Score S]

theorem Dict.IsForm.nf_ok {d : Dict} (h : d.WF) {para idx : Nat} {p : List Nat} {pre suf : Str} {tag : Tag}
    (hf : d.IsForm para idx p pre tag suf) (v : Str) : ∃ nf, d.normalForm para idx v = .ok nf := by
  unfold Dict.normalForm
  split
  · exact ⟨_, rfl⟩
  · obtain ⟨pre0, t0, suf0, hf0⟩ := h.rows _ p hf.hpara 0 (by have := hf.hidx; omega)
    have h1 : pyGet d.paradigms para = .ok p := (pyGet_ok_iff _ _ _).2 hf.hpara
    have h2 : d.stem p idx v = .ok (if suf = [] then v.drop pre.length else sliceMid v pre.length suf.length) := by
      unfold Dict.stem; rw [hf.hpre, hf.hsuf]; rfl
    rw [h1, ok_bind, h2, ok_bind, hf0.hpre, ok_bind, hf0.hsuf]
    exact ⟨_, rfl⟩

theorem Dict.WF.word_ok {d : Dict} (h : d.WF) {v : Str} {para idx : Nat} (hv : (v, (para, idx)) ∈ d.words) :
    (∃ nf, d.normalForm para idx v = .ok nf) ∧ ∃ t, d.tagInfo para idx = .ok t := by
  obtain ⟨p, pre, tag, suf, stem, hf, _⟩ := h.words _ hv
  exact ⟨hf.nf_ok h v, tag, hf.htag⟩

theorem dictParse_ok (m : Morph S) (h : m.dict.WF) (u : UObj) (wl : Str) : ∃ ps, dictParse m u wl = .ok ps := by
  unfold dictParse
  apply mapE_total
  rintro ⟨v, para, idx⟩ hv
  obtain ⟨⟨nf, hn⟩, t, ht⟩ := h.word_ok ((mem_lookup _ _ _ _ _).1 hv).2
  simp only [dictParse1]
  rw [hn, ok_bind, ht]
  exact ⟨_, rfl⟩

theorem dictTag_ok (m : Morph S) (h : m.dict.WF) (wl : Str) : ∃ ps, dictTag m wl = .ok ps := by
  unfold dictTag
  apply mapE_total
  rintro ⟨para, idx⟩ hv
  unfold Dawg.similarItemValues at hv
  obtain ⟨l, hl, hv⟩ := List.mem_flatten.1 hv
  obtain ⟨v, hk, rfl⟩ := List.mem_map.1 hl
  exact (h.word_ok ((m.dict.words.mem_vals v _).1 hv)).2

theorem allLatin_ok (e : Env) (w : Str) (h : e.Named w) : ∃ b, allLatin e w = .ok b := by
  induction w with
  | nil => exact ⟨true, rfl⟩
  | cons c cs ih =>
    obtain ⟨b, hb⟩ := ih fun x hx => h x (by simp [hx])
    unfold allLatin
    split
    · next ha =>
      obtain ⟨n, hn⟩ := Option.isSome_iff_exists.1 (h c (by simp) ha)
      simp only [isLatinChar, hn, ok_bind, hb]
      split
      · exact ⟨_, rfl⟩
      · exact ⟨_, rfl⟩
    · exact ⟨b, hb⟩

theorem isLatin_ok (e : Env) (w : Str) (h : e.Named w) : ∃ b, isLatin e w = .ok b := by
  unfold isLatin
  split
  · exact allLatin_ok e w h
  · exact ⟨_, rfl⟩

theorem shapeTag_ok (e : Env) (c : UnitCfg S) (w : Str) (h : e.Named w) : ∃ t, shapeTag e c w = .ok t := by
  unfold shapeTag
  split
  · exact ⟨_, rfl⟩
  · exact ⟨_, rfl⟩
  · obtain ⟨b, hb⟩ := isLatin_ok e w h
    rw [hb]; exact ⟨_, rfl⟩
  · exact ⟨_, rfl⟩
  · exact ⟨_, rfl⟩

/-- The grammemes `HyphenAdverbAnalyzer` asks for (by_hyphen.py:104-106). -/
def adverbGrams : Grams := [c!"ADJF", c!"sing", c!"datv"].toFinset

theorem anyE_ok {α : Type} (f : α → Except PyErr Bool) (l : List α) (h : ∀ a ∈ l, ∃ b, f a = .ok b) :
    ∃ b, anyE f l = .ok b := by
  induction l with
  | nil => exact ⟨false, rfl⟩
  | cons a l ih =>
    obtain ⟨b, hb⟩ := h a (by simp)
    obtain ⟨c, hc⟩ := ih fun a ha => h a (by simp [ha])
    simp only [anyE, hb, ok_bind]
    split
    · exact ⟨_, rfl⟩
    · exact ⟨c, hc⟩

theorem adverbShould_ok (m : Morph S) (hk : adverbGrams ⊆ m.cls.known) (rec : Rec S) (wl : Str)
    (h : ∀ x : Str, x <:+: wl → x.length < wl.length → ∃ ts, rec.tag x = .ok ts) :
    ∃ b, adverbShould m rec wl = .ok b := by
  unfold adverbShould
  split
  · exact ⟨_, rfl⟩
  · next hc =>
    obtain ⟨h1, h2⟩ := adverb_piece wl hc
    obtain ⟨ts, hts⟩ := h _ h1 h2
    rw [hts, ok_bind]
    apply anyE_ok
    intro t _
    unfold TagCls.containsSet
    split
    · exact ⟨_, rfl⟩
    · unfold TagCls.assertKnown
      have hk' : [c!"ADJF", c!"sing", c!"datv"].toFinset ⊆ m.cls.known := hk
      rw [if_pos hk']; exact ⟨_, rfl⟩

theorem sfxCands_ok (d : Dict) (h : d.WF) (sub : Subst) (i : Nat) (t : Dawg (Nat × Nat × Nat)) (ht : d.pred[i]? = some t)
    (wl : Str) (n : Nat) : ∃ cs, sfxCands d sub t wl n = .ok cs := by
  unfold sfxCands
  obtain ⟨cs, hcs⟩ := mapE_total (fun (e : Str × Nat × Nat × Nat) => do
    let tag ← d.tagInfo e.2.2.1 e.2.2.2
    pure (SfxCand.mk e.2.1 (dropRight wl n ++ e.1) e.1 tag e.2.2.1 e.2.2.2))
    (lookup t sub (takeRight wl n)) (by
      rintro ⟨e, cnt, para, idx⟩ he
      obtain ⟨_, p, pre, tag, suf, hf, _⟩ := h.pred i t ht _ ((mem_lookup _ _ _ _ _).1 he).2
      have := hf.htag
      dsimp only at this ⊢
      rw [this]; exact ⟨_, rfl⟩)
  rw [hcs]; exact ⟨_, rfl⟩

theorem sfxLoop_ok (cands : Nat → Except PyErr (List SfxCand)) (is : List Nat) (h : ∀ i, ∃ cs, cands i = .ok cs)
    (total : Nat) (seen : Seen) : ∃ r, sfxLoop cands is total seen = .ok r := by
  induction is generalizing total seen with
  | nil => exact ⟨_, rfl⟩
  | cons i is ih =>
    obtain ⟨cs, hcs⟩ := h i
    rw [sfxLoop, hcs, ok_bind]
    dsimp only
    split
    · exact ⟨_, rfl⟩
    · obtain ⟨r, hr⟩ := ih (total + cntSum cs) (dedupCands cs seen).2
      rw [hr]; exact ⟨_, rfl⟩

theorem sfxTagLoop_ok (cands : Nat → Except PyErr (List SfxCand)) (is : List Nat) (h : ∀ i, ∃ cs, cands i = .ok cs)
    (seen : SeenTags) : ∃ r, sfxTagLoop cands is seen = .ok r := by
  induction is generalizing seen with
  | nil => exact ⟨_, rfl⟩
  | cons i is ih =>
    obtain ⟨cs, hcs⟩ := h i
    rw [sfxTagLoop, hcs, ok_bind]
    dsimp only
    split
    · exact ⟨_, rfl⟩
    · obtain ⟨r, hr⟩ := ih (dedupTagCands cs seen).2
      rw [hr]; exact ⟨_, rfl⟩

theorem sfxPrefix_pred {d : Dict} (h : d.WF) {wl : Str} {ip : Nat × Str} (hip : ip ∈ sfxPrefixes d wl) :
    ∃ t, d.pred[ip.1]? = some t := by
  obtain ⟨h1, _⟩ := (mem_sfxPrefixes d wl ip).1 hip
  obtain ⟨hl, _⟩ := List.getElem?_eq_some_iff.1 h1
  exact ⟨_, List.getElem?_eq_getElem (h.predLen ▸ hl)⟩

theorem sfxPrefixLoop_ok (d : Dict) (h : d.WF) (sub : Subst) (wl : Str) (ips : List (Nat × Str))
    (hips : ∀ ip ∈ ips, ip ∈ sfxPrefixes d wl) (seen : Seen) : ∃ r, sfxPrefixLoop d sub wl ips seen = .ok r := by
  induction ips generalizing seen with
  | nil => exact ⟨_, rfl⟩
  | cons ip ips ih =>
    obtain ⟨t, ht⟩ := sfxPrefix_pred h (hips ip (by simp))
    rw [sfxPrefixLoop, (pyGet_ok_iff _ _ _).2 ht, ok_bind]
    obtain ⟨r, hr⟩ := sfxLoop_ok (sfxCands d sub t wl) (predictionSplits d.maxSuffixLength)
      (sfxCands_ok d h sub _ t ht wl) 1 seen
    obtain ⟨r', hr'⟩ := ih (fun x hx => hips x (by simp [hx])) r.2.2
    rw [hr, ok_bind, hr']; exact ⟨_, rfl⟩

theorem sfxTagPrefixLoop_ok (d : Dict) (h : d.WF) (sub : Subst) (wl : Str) (ips : List (Nat × Str))
    (hips : ∀ ip ∈ ips, ip ∈ sfxPrefixes d wl) (seen : SeenTags) :
    ∃ r, sfxTagPrefixLoop d sub wl ips seen = .ok r := by
  induction ips generalizing seen with
  | nil => exact ⟨_, rfl⟩
  | cons ip ips ih =>
    obtain ⟨t, ht⟩ := sfxPrefix_pred h (hips ip (by simp))
    rw [sfxTagPrefixLoop, (pyGet_ok_iff _ _ _).2 ht, ok_bind]
    obtain ⟨r, hr⟩ := sfxTagLoop_ok (sfxCands d sub t wl) (predictionSplits d.maxSuffixLength)
      (sfxCands_ok d h sub _ t ht wl) seen
    obtain ⟨r', hr'⟩ := ih (fun x hx => hips x (by simp [hx])) r.2
    rw [hr, ok_bind, hr']; exact ⟨_, rfl⟩

/-- Nested calls on strictly shorter pieces succeed. -/
def Rec.OkBelow (wl : Str) (r : Rec S) : Prop :=
  ∀ x : Str, x <:+: wl → x.length < wl.length → (∃ ps, r.parse x = .ok ps) ∧ ∃ ts, r.tag x = .ok ts

theorem prefixCands_ok (u : UObj) (mult : S) (f : Str → Except PyErr (List (Parse S))) (sp : List (Str × Str))
    (h : ∀ s ∈ sp, ∃ ps, f s.2 = .ok ps) : ∃ ps, prefixCands u mult f sp = .ok ps := by
  unfold prefixCands
  obtain ⟨r, hr⟩ := mapE_total (fun (s : Str × Str) => do
    let r ← f s.2
    pure (prefixDeco u mult s.1 r)) sp (by
      intro s hs
      obtain ⟨ps, hps⟩ := h s hs
      rw [hps]; exact ⟨_, rfl⟩)
  rw [hr]; exact ⟨_, rfl⟩

theorem prefixTagCands_ok (f : Str → Except PyErr (List Tag)) (sp : List (Str × Str))
    (h : ∀ s ∈ sp, ∃ ps, f s.2 = .ok ps) : ∃ ps, prefixTagCands f sp = .ok ps := by
  unfold prefixTagCands
  obtain ⟨r, hr⟩ := mapE_total (fun (s : Str × Str) => do
    let r ← f s.2
    pure (r.filter Tag.isProductive)) sp (by
      intro s hs
      obtain ⟨ps, hps⟩ := h s hs
      rw [hps]; exact ⟨_, rfl⟩)
  rw [hr]; exact ⟨_, rfl⟩

theorem hyphenParse_ok (rec : Rec S) (u : UObj) (skip : List Str) (mult : S) (wl : Str)
    (h : rec.OkBelow wl) : ∃ ps, hyphenParse rec u skip mult wl = .ok ps := by
  unfold hyphenParse
  split
  · next hs =>
    obtain ⟨⟨h1, h2⟩, h3, h4⟩ := hyphen_pieces skip wl hs
    obtain ⟨l, hl⟩ := (h _ h1 h2).1
    obtain ⟨r, hr⟩ := (h _ h3 h4).1
    dsimp only
    rw [hl, ok_bind, hr]; exact ⟨_, rfl⟩
  · exact ⟨_, rfl⟩

theorem sfxBuild_ok (m : Morph S) (h : m.dict.WF) (u : BUnit S) (mult : S) (wl : Str) (seen : Seen)
    (r : List (SfxCand × Nat) × Seen) (hr : sfxPrefixLoop m.dict m.sub wl (sfxPrefixes m.dict wl) seen = .ok r) :
    ∃ ps, mapE (sfxBuild m u mult) r.1 = .ok ps := by
  apply mapE_total
  rintro ⟨c, n⟩ hc
  obtain ⟨ip, hip, t, ht, i, hi, cs, hcs, hcm⟩ := sfxPrefixLoop_mem _ _ _ _ _ _ hr _ hc
  obtain ⟨_, _, _, _, he⟩ := sfxCands_mem _ _ _ _ _ _ hcs _ hcm
  obtain ⟨_, p, pre, tag, suf, hf, _⟩ := h.pred _ _ ht _ he
  obtain ⟨nf, hnf⟩ := hf.nf_ok h c.word
  unfold sfxBuild
  dsimp only at hnf ⊢
  rw [hnf]; exact ⟨_, rfl⟩

theorem unitParse_ok (m : Morph S) (h : m.dict.WF) (hk : adverbGrams ⊆ m.cls.known) (rec : Rec S) (u : BUnit S)
    (hu : u.cfg.properPrefixes) (word wl : Str) (hn : m.env.Named word) (hrec : rec.OkBelow wl) (seen : Seen) :
    ∃ r, unitParse m rec u word wl seen = .ok r := by
  unfold unitParse
  split
  case h_1 => obtain ⟨ps, hps⟩ := dictParse_ok m h u.obj wl; rw [hps]; exact ⟨_, rfl⟩
  case h_2 => exact ⟨_, rfl⟩
  case h_3 => exact ⟨_, rfl⟩
  case h_4 | h_5 | h_6 | h_7 => obtain ⟨t, ht⟩ := shapeTag_ok m.env u.cfg word hn; rw [ht]; exact ⟨_, rfl⟩
  case h_8 =>
    split
    · exact ⟨_, rfl⟩
    · next rest part hp =>
      obtain ⟨h1, h2⟩ := particle_piece _ _ _ _ hp
      obtain ⟨ps, hps⟩ := (hrec _ h1 h2).1
      rw [hps]; exact ⟨_, rfl⟩
  case h_9 =>
    obtain ⟨b, hb⟩ := adverbShould_ok m hk rec wl fun x h1 h2 => (hrec x h1 h2).2
    rw [hb]; exact ⟨_, rfl⟩
  case h_10 skip mult _ =>
    obtain ⟨ps, hps⟩ := hyphenParse_ok rec u.obj skip mult wl hrec
    rw [hps]; exact ⟨_, rfl⟩
  case h_11 ps mult k hcfg =>
    rw [hcfg] at hu
    obtain ⟨ps, hps⟩ := prefixCands_ok u.obj mult rec.parse (possibleSplits ps k wl) (by
      rintro ⟨pre, rest⟩ hs
      obtain ⟨h1, h2⟩ := prefix_piece ps hu k wl pre rest hs
      exact (hrec _ h1 h2).1)
    rw [hps]; exact ⟨_, rfl⟩
  case h_12 mult _ =>
    obtain ⟨ps, hps⟩ := prefixCands_ok u.obj mult (dictParse m u.inner) (wordSplits wl) fun s _ => dictParse_ok m h _ _
    rw [hps]; exact ⟨_, rfl⟩
  case h_13 mult k _ =>
    unfold suffixParse
    split
    · exact ⟨_, rfl⟩
    · obtain ⟨r, hr⟩ := sfxPrefixLoop_ok m.dict h m.sub wl _ (fun _ h => h) seen
      obtain ⟨ps, hps⟩ := sfxBuild_ok m h u mult wl seen r hr
      rw [hr, ok_bind, hps]; exact ⟨_, rfl⟩
  case h_14 => exact ⟨_, rfl⟩

theorem unitTag_ok (m : Morph S) (h : m.dict.WF) (hk : adverbGrams ⊆ m.cls.known) (rec : Rec S) (u : BUnit S)
    (hu : u.cfg.properPrefixes) (word wl : Str) (hn : m.env.Named word) (hrec : rec.OkBelow wl) (seen : SeenTags) :
    ∃ r, unitTag m rec u word wl seen = .ok r := by
  unfold unitTag
  split
  case h_1 => obtain ⟨ps, hps⟩ := dictTag_ok m h wl; rw [hps]; exact ⟨_, rfl⟩
  case h_2 => exact ⟨_, rfl⟩
  case h_3 => exact ⟨_, rfl⟩
  case h_4 | h_5 | h_6 | h_7 => obtain ⟨t, ht⟩ := shapeTag_ok m.env u.cfg word hn; rw [ht]; exact ⟨_, rfl⟩
  case h_8 =>
    split
    · exact ⟨_, rfl⟩
    · next rest part hp =>
      obtain ⟨h1, h2⟩ := particle_piece _ _ _ _ hp
      obtain ⟨ps, hps⟩ := (hrec _ h1 h2).2
      rw [hps]; exact ⟨_, rfl⟩
  case h_9 =>
    obtain ⟨b, hb⟩ := adverbShould_ok m hk rec wl fun x h1 h2 => (hrec x h1 h2).2
    rw [hb]; exact ⟨_, rfl⟩
  case h_10 skip mult _ =>
    obtain ⟨ps, hps⟩ := hyphenParse_ok rec u.obj skip mult wl hrec
    rw [hps]; exact ⟨_, rfl⟩
  case h_11 ps mult k hcfg =>
    rw [hcfg] at hu
    obtain ⟨ps, hps⟩ := prefixTagCands_ok rec.tag (possibleSplits ps k wl) (by
      rintro ⟨pre, rest⟩ hs
      obtain ⟨h1, h2⟩ := prefix_piece ps hu k wl pre rest hs
      exact (hrec _ h1 h2).2)
    rw [hps]; exact ⟨_, rfl⟩
  case h_12 mult _ =>
    obtain ⟨ps, hps⟩ := prefixTagCands_ok (dictTag m) (wordSplits wl) fun s _ => dictTag_ok m h _
    rw [hps]; exact ⟨_, rfl⟩
  case h_13 mult k _ =>
    unfold suffixTag
    split
    · exact ⟨_, rfl⟩
    · obtain ⟨r, hr⟩ := sfxTagPrefixLoop_ok m.dict h m.sub wl _ (fun _ h => h) seen
      rw [hr]; exact ⟨_, rfl⟩
  case h_14 => exact ⟨_, rfl⟩

theorem runParse_ok (m : Morph S) (rec : Rec S) (word wl : Str) (us : List (BUnit S × Bool))
    (h : ∀ u ∈ us, ∀ seen, ∃ r, unitParse m rec u.1 word wl seen = .ok r) (seen : Seen) (res : List (Parse S)) :
    ∃ out, runParse m rec word wl us seen res = .ok out := by
  induction us generalizing seen res with
  | nil => exact ⟨_, rfl⟩
  | cons ut us ih =>
    obtain ⟨u, t⟩ := ut
    obtain ⟨r, hr⟩ := h (u, t) (by simp) seen
    rw [runParse, hr, ok_bind]
    dsimp only
    split
    · exact ⟨_, rfl⟩
    · exact ih (fun u hu => h u (by simp [hu])) _ _

theorem runTag_ok (m : Morph S) (rec : Rec S) (word wl : Str) (us : List (BUnit S × Bool))
    (h : ∀ u ∈ us, ∀ seen, ∃ r, unitTag m rec u.1 word wl seen = .ok r) (seen : SeenTags) (res : List Tag) :
    ∃ out, runTag m rec word wl us seen res = .ok out := by
  induction us generalizing seen res with
  | nil => exact ⟨_, rfl⟩
  | cons ut us ih =>
    obtain ⟨u, t⟩ := ut
    obtain ⟨r, hr⟩ := h (u, t) (by simp) seen
    rw [runTag, hr, ok_bind]
    dsimp only
    split
    · exact ⟨_, rfl⟩
    · exact ih (fun u hu => h u (by simp [hu])) _ _

end generic

/-! ### Positive scores (exact arithmetic) -/

/-- Nested calls return positive scores only. -/
def Rec.PosBelow (wl : Str) (r : Rec Rat) : Prop :=
  ∀ x : Str, x <:+: wl → x.length < wl.length → ∀ ps, r.parse x = .ok ps → ∀ p ∈ ps, 0 < p.score

theorem sfxLoop_total (cands : Nat → Except PyErr (List SfxCand)) (is : List Nat) (total : Nat) (seen : Seen)
    (r : List SfxCand × Nat × Seen) (h : sfxLoop cands is total seen = .ok r) : total ≤ r.2.1 := by
  induction is generalizing total seen r with
  | nil => simp [sfxLoop] at h; subst h; exact le_rfl
  | cons i is ih =>
    rw [sfxLoop, bind_ok_iff] at h
    obtain ⟨cs, _, h⟩ := h
    dsimp only at h
    split at h
    · simp at h; subst h; simp
    · simp only [bind_ok_iff, pure_eq_ok, Except.ok.injEq] at h
      obtain ⟨r', hr', rfl⟩ := h
      have := ih _ _ _ hr'
      dsimp only
      omega

theorem sfxPrefixLoop_total (d : Dict) (sub : Subst) (wl : Str) (ips : List (Nat × Str)) (seen : Seen)
    (r : List (SfxCand × Nat) × Seen) (h : sfxPrefixLoop d sub wl ips seen = .ok r) (c : SfxCand × Nat)
    (hc : c ∈ r.1) : 1 ≤ c.2 := by
  induction ips generalizing seen r with
  | nil => simp [sfxPrefixLoop] at h; subst h; simp at hc
  | cons ip ips ih =>
    simp only [sfxPrefixLoop, bind_ok_iff, pure_eq_ok, Except.ok.injEq, pyGet_ok_iff] at h
    obtain ⟨t, ht, r1, hr1, r2, hr2, rfl⟩ := h
    rcases List.mem_append.1 hc with hc | hc
    · obtain ⟨x, _, rfl⟩ := List.mem_map.1 hc
      exact sfxLoop_total _ _ _ _ _ hr1
    · exact ih _ _ hr2 hc

theorem unitParse_pos (m : Morph Rat) (h : m.dict.WF) (rec : Rec Rat) (u : BUnit Rat)
    (hu : u.cfg.properPrefixes) (hpos : u.cfg.posScores) (word wl : Str) (hrec : rec.PosBelow wl) (seen : Seen)
    (r : List (Parse Rat) × Seen) (hr : unitParse m rec u word wl seen = .ok r) (p : Parse Rat) (hp : p ∈ r.1) :
    0 < p.score := by
  unfold unitParse at hr
  split at hr
  case h_1 =>
    simp only [bind_ok_iff, pure_eq_ok, Except.ok.injEq] at hr
    obtain ⟨ps, hps, rfl⟩ := hr
    obtain ⟨_, _, _, _, _, _, hs, _⟩ := dictParse_mem m _ wl ps hps p hp
    rw [hs]; exact zero_lt_one
  case h_2 hcfg | h_3 hcfg =>
    rw [hcfg] at hpos
    simp only [Except.ok.injEq] at hr
    subst hr
    simp only [initialsParse] at hp
    split at hp
    · obtain ⟨t, _, rfl⟩ := List.mem_map.1 hp; exact hpos
    · simp at hp
  case h_4 hcfg | h_5 hcfg | h_6 hcfg | h_7 hcfg =>
    rw [hcfg] at hpos
    simp only [bind_ok_iff, pure_eq_ok, Except.ok.injEq] at hr
    obtain ⟨t, _, rfl⟩ := hr
    unfold shapeParse at hp
    cases t with
    | none => simp at hp
    | some t => simp at hp; subst hp; exact hpos
  case h_8 hcfg =>
    rw [hcfg] at hpos
    split at hr
    · simp at hr; subst hr; simp at hp
    · next rest part hsp =>
      simp only [bind_ok_iff, pure_eq_ok, Except.ok.injEq] at hr
      obtain ⟨ps, hps, rfl⟩ := hr
      obtain ⟨h1, h2⟩ := particle_piece _ _ _ _ hsp
      obtain ⟨q, hq, rfl⟩ := List.mem_map.1 (addParses_mem hp)
      exact mul_pos (hrec _ h1 h2 ps hps q hq) hpos
  case h_9 hcfg =>
    rw [hcfg] at hpos
    simp only [bind_ok_iff, pure_eq_ok, Except.ok.injEq] at hr
    obtain ⟨b, _, rfl⟩ := hr
    cases b
    · simp at hp
    · simp at hp; subst hp; exact hpos
  case h_10 skip mult hcfg =>
    rw [hcfg] at hpos
    simp only [bind_ok_iff, pure_eq_ok, Except.ok.injEq] at hr
    obtain ⟨ps, hps, rfl⟩ := hr
    unfold hyphenParse at hps
    split at hps
    · next hs =>
      obtain ⟨⟨h1, h2⟩, h3, h4⟩ := hyphen_pieces skip wl hs
      simp only [bind_ok_iff, pure_eq_ok, Except.ok.injEq] at hps
      obtain ⟨lp, hlp, rp, hrp, rfl⟩ := hps
      rcases List.mem_append.1 hp with hp | hp
      · obtain ⟨l, hl, _, _, _, _, rfl⟩ := parseBoth_mem _ _ _ _ _ hp
        exact mul_pos (hrec _ h1 h2 _ hlp l hl) hpos
      · obtain ⟨l, hl, _, rfl⟩ := parseFixed_mem _ _ _ _ _ hp
        exact mul_pos (hrec _ h3 h4 _ hrp l hl) hpos
    · simp at hps; subst hps; simp at hp
  case h_11 pfs mult k hcfg =>
    rw [hcfg] at hpos hu
    simp only [bind_ok_iff, pure_eq_ok, Except.ok.injEq] at hr
    obtain ⟨ps, hps, rfl⟩ := hr
    obtain ⟨pre, rest, qs, q, hs, hqs, hq, _, rfl⟩ := prefixCands_mem _ _ _ _ _ hps p (addParses_mem hp)
    obtain ⟨h1, h2⟩ := prefix_piece pfs hu k wl pre rest hs
    exact mul_pos (hrec _ h1 h2 _ hqs q hq) hpos
  case h_12 mult hcfg =>
    rw [hcfg] at hpos
    simp only [bind_ok_iff, pure_eq_ok, Except.ok.injEq] at hr
    obtain ⟨ps, hps, rfl⟩ := hr
    obtain ⟨pre, rest, qs, q, hs, hqs, hq, _, rfl⟩ := prefixCands_mem _ _ _ _ _ hps p (addParses_mem hp)
    obtain ⟨_, _, _, _, _, _, hs, _⟩ := dictParse_mem m _ rest qs hqs q hq
    refine mul_pos ?_ hpos
    rw [hs]; exact zero_lt_one
  case h_13 mult k hcfg =>
    rw [hcfg] at hpos
    unfold suffixParse at hr
    split at hr
    · simp at hr; subst hr; simp at hp
    · simp only [bind_ok_iff, pure_eq_ok, Except.ok.injEq] at hr
      obtain ⟨r', hr', ps, hps, rfl⟩ := hr
      have hp := (sortByScore_perm ps).mem_iff.1 hp
      obtain ⟨⟨c, n⟩, hc, hb⟩ := mapE_mem hps hp
      have hn := sfxPrefixLoop_total _ _ _ _ _ _ hr' _ hc
      obtain ⟨ip, hip, t, ht, i, hi, cs, hcs, hcm⟩ := sfxPrefixLoop_mem _ _ _ _ _ _ hr' _ hc
      obtain ⟨_, _, _, _, he⟩ := sfxCands_mem _ _ _ _ _ _ hcs _ hcm
      obtain ⟨hcnt, _⟩ := h.pred _ _ ht _ he
      simp only [sfxBuild, bind_ok_iff, pure_eq_ok, Except.ok.injEq] at hb
      obtain ⟨nf, _, rfl⟩ := hb
      refine mul_pos (div_pos ?_ ?_) hpos
      · show (0 : Rat) < ((c.cnt : Nat) : Rat)
        exact_mod_cast hcnt
      · show (0 : Rat) < ((n : Nat) : Rat)
        exact_mod_cast hn
  case h_14 =>
    simp only [Except.ok.injEq] at hr
    subst hr
    split at hp
    · simp at hp; subst hp; exact zero_lt_one
    · simp at hp

theorem sumS_eq (xs : List Rat) : sumS xs = xs.sum := by
  unfold sumS
  rw [List.sum_eq_foldl]
  rfl

theorem sum_pos_of_pos (xs : List Rat) (hne : xs ≠ []) (h : ∀ x ∈ xs, 0 < x) : 0 < xs.sum := by
  induction xs with
  | nil => exact absurd rfl hne
  | cons a l ih =>
    rw [List.sum_cons]
    have ha := h a (by simp)
    cases l with
    | nil => simpa using ha
    | cons b l => have := ih (by simp) fun x hx => h x (by simp [hx]); linarith

theorem prob_nonneg (dawg : List (Str × Nat)) (w : Str) (t : Tag) : (0 : Rat) ≤ prob dawg w t := by
  unfold prob
  show (0 : Rat) ≤ ((_ : Nat) : Rat) / ((_ : Nat) : Rat)
  positivity

theorem exists_pos_of_sum_ne_zero (xs : List Rat) (h0 : ∀ x ∈ xs, 0 ≤ x) (h : xs.sum ≠ 0) : ∃ x ∈ xs, 0 < x := by
  by_contra hc
  push Not at hc
  apply h
  apply List.sum_eq_zero
  intro x hx
  exact le_antisymm (hc x hx) (h0 x hx)

/-- The estimator does not raise, keeps the number of analyses and leaves positive scores. -/
theorem applyToParses_pos (dawg : List (Str × Nat)) (wl : Str) (ps : List (Parse Rat)) (hps : ∀ p ∈ ps, 0 < p.score)
    (hcomp : ∀ p ∈ ps, ∀ q ∈ ps, (0 : Rat) < prob dawg wl p.tag → (0 : Rat) < prob dawg wl q.tag) :
    ∃ out, applyToParses dawg wl ps = .ok out ∧ out.length = ps.length ∧ ∀ p ∈ out, 0 < p.score := by
  unfold applyToParses
  split
  · next he => exact ⟨[], rfl, by simp [he], by simp⟩
  · next hne =>
    dsimp only
    split
    · next hz =>
      have hpos : 0 < (ps.map Parse.score).sum := sum_pos_of_pos _ (by simpa using hne) (by
        intro x hx; obtain ⟨p, hp, rfl⟩ := List.mem_map.1 hx; exact hps p hp)
      rw [if_neg]
      · refine ⟨_, rfl, by simp, ?_⟩
        intro p hp
        obtain ⟨q, hq, rfl⟩ := List.mem_map.1 hp
        refine mul_pos (hps q hq) ?_
        rw [sumS_eq]
        exact div_pos zero_lt_one hpos
      · rw [sumS_eq]
        simpa [Score.isZero] using hpos.ne'
    · next hz =>
      refine ⟨_, rfl, ?_, ?_⟩
      · rw [(sortByScore_perm _).length_eq, List.length_map]
      · rw [sumS_eq] at hz
        obtain ⟨x, hx, hxp⟩ := exists_pos_of_sum_ne_zero (ps.map fun p => prob dawg wl p.tag) (by
          intro x hx; obtain ⟨p, hp, rfl⟩ := List.mem_map.1 hx; exact prob_nonneg _ _ _)
          (by simpa [Score.isZero] using hz)
        obtain ⟨q, hq, rfl⟩ := List.mem_map.1 hx
        intro p hp
        have hp := (sortByScore_perm _).mem_iff.1 hp
        obtain ⟨p', hp', rfl⟩ := List.mem_map.1 hp
        exact hcomp q hq p' hp' hxp

end Verif
