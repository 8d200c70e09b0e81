/-
C58: what the `parse` command prints.
-/
import Verif.Props.C43
import Verif.Props.C44
import Verif.Props.C09
import Verif.Spec.Printed
import Mathlib.Data.List.Sort
import Mathlib.Algebra.Order.Ring.Rat

set_option linter.unusedSectionVars false

namespace Verif
variable {S : Type} [Score S]

/-! ### One chunk per token -/

theorem writeLoop_plain (f : Str → Except PyErr Str) (ts : List Str) (cs : List Str) :
    (writeLoop (fun t (_ : Unit) => (f t, ())) ts () = (cs, none) ↔ mapE f ts = .ok cs) ∧
    (∀ e, writeLoop (fun t (_ : Unit) => (f t, ())) ts () = (cs, some e) ↔
      ∃ pre t post, ts = pre ++ t :: post ∧ mapE f pre = .ok cs ∧ f t = .error e) := by
  induction ts generalizing cs with
  | nil =>
    refine ⟨by simp [writeLoop, mapE], fun e => ?_⟩
    simp [writeLoop]
  | cons t ts ih =>
    unfold writeLoop
    cases hf : f t with
    | error e' =>
      refine ⟨by simp [mapE, hf], fun e => ?_⟩
      simp only [Prod.mk.injEq, Option.some.injEq]
      constructor
      · rintro ⟨rfl, rfl⟩; exact ⟨[], t, ts, rfl, rfl, hf⟩
      · rintro ⟨pre, t', post, h1, h2, h3⟩
        cases pre with
        | nil =>
          simp only [List.nil_append, List.cons.injEq] at h1
          obtain ⟨rfl, rfl⟩ := h1
          rw [hf] at h3; cases h3; cases h2
          exact ⟨rfl, rfl⟩
        | cons p pre =>
          simp only [List.cons_append, List.cons.injEq] at h1
          obtain ⟨rfl, rfl⟩ := h1
          simp [mapE, hf] at h2
    | ok b =>
      constructor
      · simp only [mapE, hf, ok_bind]
        constructor
        · intro h
          simp only [Prod.mk.injEq] at h
          obtain ⟨rfl, h2⟩ := h
          rw [(ih _).1.1 (Prod.ext rfl h2)]
          rfl
        · intro h
          obtain ⟨r, hr, h⟩ := (bind_ok_iff _ _ _).1 h
          cases h
          rw [(ih r).1.2 hr]
      · intro e
        simp only [Prod.mk.injEq]
        constructor
        · rintro ⟨rfl, h2⟩
          obtain ⟨pre, t', post, h3, h4, h5⟩ := ((ih _).2 e).1 (Prod.ext rfl h2)
          exact ⟨t :: pre, t', post, by simp [h3], by simp only [mapE, hf, ok_bind, h4]; rfl, h5⟩
        · rintro ⟨pre, t', post, h1, h2, h3⟩
          cases pre with
          | nil =>
            simp only [List.nil_append, List.cons.injEq] at h1
            obtain ⟨rfl, rfl⟩ := h1
            rw [hf] at h3; cases h3
          | cons p pre =>
            simp only [List.cons_append, List.cons.injEq] at h1
            obtain ⟨rfl, h1⟩ := h1
            simp only [mapE, hf, ok_bind] at h2
            obtain ⟨r, hr, h2⟩ := (bind_ok_iff _ _ _).1 h2
            cases h2
            rw [((ih r).2 e).2 ⟨pre, t', post, h1, hr, h3⟩]
            exact ⟨rfl, rfl⟩

/-- The command without a cache. -/
theorem cliParse_plain (isWord : Char → Bool) (fmt : S → Str) (m : Morph S) (o : CliOpts S) (tokenize : Bool) (c : CacheArg) (lines : List Str)
    (ho : o.normalForm = true ∨ o.tag = true) : cliParse isWord fmt m o tokenize c lines =
      writeLoop (fun t (_ : Unit) => (formatToken fmt m o t, ())) (iterTokens isWord m.env tokenize lines) () := by
  unfold cliParse
  rw [if_neg (by rcases ho with h | h <;> simp [h])]
  exact writeLoop_transparent _ (formatToken fmt m o) _ (fun t s hs => cachedCall_sound c _ t s hs) _ [] (by simp)

/-- **C58.** The command succeeds iff every token of the input can be formatted; it then writes one chunk for each token, in order.
Otherwise it writes the chunks of the tokens before the first one that raises, and ends with its exception. -/
theorem c58_chunks (isWord : Char → Bool) (fmt : S → Str) (m : Morph S) (o : CliOpts S) (tokenize : Bool) (c : CacheArg) (lines : List Str)
    (ho : o.normalForm = true ∨ o.tag = true) (cs : List Str) :
    (cliParse isWord fmt m o tokenize c lines = (cs, none) ↔
      List.Forall₂ (fun tok chunk => formatToken fmt m o tok = .ok chunk) (iterTokens isWord m.env tokenize lines) cs) ∧
    ∀ e, cliParse isWord fmt m o tokenize c lines = (cs, some e) ↔ ∃ pre t post, iterTokens isWord m.env tokenize lines = pre ++ t :: post ∧
      List.Forall₂ (fun tok chunk => formatToken fmt m o tok = .ok chunk) pre cs ∧ formatToken fmt m o t = .error e := by
  rw [cliParse_plain isWord fmt m o tokenize c lines ho]
  obtain ⟨h1, h2⟩ := writeLoop_plain (formatToken fmt m o) (iterTokens isWord m.env tokenize lines) cs
  refine ⟨h1.trans (mapE_ok_iff _ _ _), fun e => (h2 e).trans ?_⟩
  simp only [mapE_ok_iff]

/-- `t` is `l` without the whitespace around it. -/
def Stripped (e : Env) (l t : Str) : Prop :=
  (∃ a b, l = a ++ t ++ b ∧ (∀ c ∈ a, e.isSpace c = true) ∧ ∀ c ∈ b, e.isSpace c = true) ∧
    (∀ c, t.head? = some c → e.isSpace c = false) ∧ ∀ c, t.getLast? = some c → e.isSpace c = false

theorem pyStrip_stripped (e : Env) (l : Str) : Stripped e l (pyStrip e l) := by
  have hd : ∀ (s : Str), s = s.takeWhile e.isSpace ++ s.dropWhile e.isSpace := fun s => List.takeWhile_append_dropWhile.symm
  have hhead : ∀ (s : Str) c, (s.dropWhile e.isSpace).head? = some c → e.isSpace c = false := by
    intro s c hc
    induction s with
    | nil => simp at hc
    | cons x s ih =>
      rw [List.dropWhile_cons] at hc
      split at hc
      · exact ih hc
      · next h => simp only [List.head?_cons, Option.some.injEq] at hc; subst hc; simpa using h
  unfold pyStrip
  set u := l.dropWhile e.isSpace with hu
  refine ⟨⟨l.takeWhile e.isSpace, (u.reverse.takeWhile e.isSpace).reverse, ?_, fun c hc => List.mem_takeWhile_imp hc,
    fun c hc => List.mem_takeWhile_imp (List.mem_reverse.1 hc)⟩, ?_, ?_⟩
  · rw [List.append_assoc, ← List.reverse_append, ← hd, List.reverse_reverse, hu, ← hd]
  · intro c hc
    have hpre : (u.reverse.dropWhile e.isSpace).reverse <+: u := by
      rw [← List.reverse_suffix, List.reverse_reverse]
      exact List.dropWhile_suffix _
    obtain ⟨r, hr⟩ := hpre
    apply hhead l c
    rw [← hu, ← hr]
    cases hx : (u.reverse.dropWhile e.isSpace).reverse with
    | nil => rw [hx] at hc; simp at hc
    | cons y ys => rw [hx] at hc; simpa using hc
  · intro c hc
    rw [List.getLast?_reverse] at hc
    exact hhead _ c hc

/-- **C58**, tokens: with `--tokenized` each line that is not blank is a token (without the whitespace around it); without it the tokens are those of the lines,
one line after another. -/
theorem c58_tokens (isWord : Char → Bool) (e : Env) (lines : List Str) :
    iterTokens isWord e true lines = (lines.map (simpleWordTokenize isWord e)).flatten ∧
    ∃ ts, List.Forall₂ (Stripped e) lines ts ∧ iterTokens isWord e false lines = ts.filter fun t => decide (t ≠ []) := by
  refine ⟨by unfold iterTokens; rw [if_pos rfl, List.flatMap_def], lines.map (pyStrip e), ?_, ?_⟩
  · rw [List.forall₂_map_right_iff, List.forall₂_same]
    intro l _; exact pyStrip_stripped e l
  · unfold iterTokens
    rw [if_neg (by simp)]
    apply List.filter_congr
    intro t _
    cases t <;> simp

/-- **C58.** Each chunk is the token, then the analyses in braces, separated by bars, then a line break (or a space). -/
theorem c58_line (fmt : S → Str) (m : Morph S) (o : CliOpts S) (tok chunk : Str) (h : formatToken fmt m o tok = .ok chunk) :
    ∃ items : List Str, chunk = tok ++ c!"{" ++ joinC '|' items ++ c!"}" ++ (if o.newlines then c!"\n" else c!" ") := by
  have key : ∀ seq, o.line tok seq = tok ++ c!"{" ++ joinC '|' seq ++ c!"}" ++ (if o.newlines then c!"\n" else c!" ") := by
    intro seq; simp [CliOpts.line]
  unfold formatToken at h
  split at h
  · cases h
  split at h
  · obtain ⟨ts, _, h⟩ := (bind_ok_iff _ _ _).1 h
    cases h; exact ⟨_, key _⟩
  · obtain ⟨ps, _, h⟩ := (bind_ok_iff _ _ _).1 h
    simp only at h
    repeat' split at h
    all_goals cases h; exact ⟨_, key _⟩

/-! ### Lemma mode -/

theorem lemmaWeights_spec (ps : List (Parse Rat)) : ∀ d : List (Str × Rat), (d.map Prod.fst).Nodup →
    ((lemmaWeights ps d).map Prod.fst).Nodup ∧
    ∀ l, dictGet l (lemmaWeights ps d) = if l ∈ ps.map Parse.nf ∨ l ∈ d.map Prod.fst then some ((dictGet l d).getD 0 + lemmaTotal ps l) else none := by
  induction ps with
  | nil =>
    intro d hd
    refine ⟨hd, fun l => ?_⟩
    simp only [lemmaWeights, List.map_nil, List.not_mem_nil, false_or, lemmaTotal, List.filter_nil, List.sum_nil]
    split
    next h =>
      obtain ⟨v, hv⟩ := (dictGet_isSome_iff l d).2 h
      simp [hv]
    next h => exact (dictGet_none_iff l d).2 h
  | cons p ps ih =>
    intro d hd
    simp only [lemmaWeights]
    obtain ⟨h1, h2⟩ := ih (dictSet p.nf (Score.add ((dictGet p.nf d).getD Score.zero) p.score) d) (keys_dictSet_nodup _ _ _ hd)
    refine ⟨h1, fun l => ?_⟩
    rw [h2 l]
    have hkeys : l ∈ (dictSet p.nf (Score.add ((dictGet p.nf d).getD Score.zero) p.score) d).map Prod.fst ↔ l = p.nf ∨ l ∈ d.map Prod.fst := by
      rw [← dictGet_isSome_iff, ← dictGet_isSome_iff, dictGet_dictSet]
      by_cases hl : l = p.nf
      · simp [hl]
      · simp [hl]
    simp only [hkeys, dictGet_dictSet]
    by_cases hl : l = p.nf
    · subst hl
      simp only [true_or, or_true, List.map_cons, List.mem_cons, if_true, Option.getD_some, Option.some.injEq]
      simp only [lemmaTotal, List.filter_cons, decide_true, if_true, List.map_cons, List.sum_cons]
      show ((dictGet p.nf d).getD 0 + p.score) + _ = _
      rw [Rat.add_assoc]
    · have hl' : ¬ p.nf = l := fun h => hl h.symm
      have : lemmaTotal (p :: ps) l = lemmaTotal ps l := by
        simp only [lemmaTotal]
        rw [List.filter_cons_of_neg (by simpa using hl')]
      rw [this]
      simp only [hl, if_false, List.map_cons, List.mem_cons, false_or]

/-- **C58.** With lemmas and no tags: the lemmas printed are the different normal forms of the parses whose scores add up to at least the
threshold, each once, in the order of decreasing total score (exact arithmetic). -/
theorem c58_lemmas (thresh : Rat) (ps : List (Parse Rat)) :
    ((lemmaItems thresh ps).map Prod.fst).Nodup ∧
    (∀ l w, (l, w) ∈ lemmaItems thresh ps ↔ (∃ p ∈ ps, p.nf = l) ∧ w = lemmaTotal ps l ∧ thresh ≤ w) ∧
    (lemmaItems thresh ps).Pairwise fun a b => b.2 ≤ a.2 := by
  obtain ⟨h1, h2⟩ := lemmaWeights_spec ps [] (by simp)
  have hperm : (lemmaItems thresh ps).Perm ((lemmaWeights ps []).filter fun e => Score.le thresh e.2) := List.perm_insertionSort _ _
  have hn : ((lemmaItems thresh ps).map Prod.fst).Nodup :=
    (hperm.map Prod.fst).nodup_iff.2 (h1.sublist (List.filter_sublist.map _))
  refine ⟨hn, fun l w => ?_, ?_⟩
  · rw [hperm.mem_iff, List.mem_filter]
    have hle : (Score.le thresh w = true) ↔ thresh ≤ w := by simp [Score.le]
    have hmem : (l, w) ∈ lemmaWeights ps [] ↔ (∃ p ∈ ps, p.nf = l) ∧ w = lemmaTotal ps l := by
      constructor
      · intro h
        have hg := dictGet_of_mem l _ w h1 h
        rw [h2 l] at hg
        split at hg
        next hc =>
          simp only [List.map_nil, List.not_mem_nil, or_false, List.mem_map] at hc
          simp only [dictGet, Option.getD_none, zero_add, Option.some.injEq] at hg
          exact ⟨hc, hg.symm⟩
        · cases hg
      · rintro ⟨hp, rfl⟩
        apply dictGet_mem'
        rw [h2 l, if_pos (by left; simpa using hp)]
        simp [dictGet]
    rw [hmem, hle, and_assoc]
  · have := List.pairwise_insertionSort (fun a b : Str × Rat => Score.le b.2 a.2 = true) ((lemmaWeights ps []).filter fun e => Score.le thresh e.2)
    exact this.imp fun h => by simpa [Score.le] using h

/-- A stable sort: pairs the order does not separate keep the order they had. -/
theorem pairwise_orderedInsert_stable {α : Type} (r : α → α → Prop) [DecidableRel r] (tot : ∀ a b, r a b ∨ r b a) (tr : ∀ a b c, r a b → r b c → r a c)
    (T : α → α → Prop) (x : α) (s : List α) (hs : s.Pairwise fun a b => r a b ∧ (¬ r b a ∨ T a b)) (hx : ∀ y ∈ s, T x y) :
    (s.orderedInsert r x).Pairwise fun a b => r a b ∧ (¬ r b a ∨ T a b) := by
  induction s with
  | nil => simp
  | cons y s ih =>
    rw [List.orderedInsert_cons]
    obtain ⟨h1, h2⟩ := List.pairwise_cons.1 hs
    split
    · next hr =>
      refine List.pairwise_cons.2 ⟨?_, hs⟩
      intro z hz
      refine ⟨?_, .inr (hx z hz)⟩
      rcases List.mem_cons.1 hz with rfl | hz
      · exact hr
      · exact tr _ _ _ hr (h1 z hz).1
    · next hr =>
      refine List.pairwise_cons.2 ⟨?_, ih h2 fun z hz => hx z (by simp [hz])⟩
      intro z hz
      rcases (List.mem_orderedInsert r).1 hz with rfl | hz
      · exact ⟨(tot y z).resolve_right hr, .inl hr⟩
      · exact h1 z hz

theorem pairwise_insertionSort_stable {α : Type} (r : α → α → Prop) [DecidableRel r] (tot : ∀ a b, r a b ∨ r b a) (tr : ∀ a b c, r a b → r b c → r a c)
    (T : α → α → Prop) (l : List α) (hl : l.Pairwise T) : (l.insertionSort r).Pairwise fun a b => r a b ∧ (¬ r b a ∨ T a b) := by
  induction l with
  | nil => simp
  | cons x l ih =>
    obtain ⟨h1, h2⟩ := List.pairwise_cons.1 hl
    rw [List.insertionSort_cons]
    exact pairwise_orderedInsert_stable r tot tr T x _ (ih h2) fun y hy => h1 y ((List.mem_insertionSort r).1 hy)

theorem normalFormsLoop_congr (ps : List (Parse S)) (a b : List Str) (h : ∀ x, x ∈ a ↔ x ∈ b) : normalFormsLoop ps a = normalFormsLoop ps b := by
  induction ps generalizing a b with
  | nil => rfl
  | cons p ps ih =>
    unfold normalFormsLoop
    by_cases hp : p.nf ∈ a
    · rw [if_pos hp, if_pos ((h _).1 hp)]; exact ih a b h
    · rw [if_neg hp, if_neg (fun hb => hp ((h _).2 hb)), ih (p.nf :: a) (p.nf :: b) (by intro x; simp [h x])]

/-- The keys of the dictionary of lemmas are the normal forms in the order `normal_forms()` has them. -/
theorem lemmaWeights_keys (ps : List (Parse S)) (d : List (Str × S)) :
    (lemmaWeights ps d).map Prod.fst = d.map Prod.fst ++ normalFormsLoop ps (d.map Prod.fst) := by
  induction ps generalizing d with
  | nil => simp [lemmaWeights, normalFormsLoop]
  | cons p ps ih =>
    unfold lemmaWeights normalFormsLoop
    rw [ih]
    by_cases h : p.nf ∈ d.map Prod.fst
    · rw [if_pos h, keys_dictSet_mem _ _ _ h]
    · rw [if_neg h, keys_dictSet_not_mem _ _ _ h]
      simp only [List.map_append, List.map_cons, List.map_nil, List.append_assoc, List.cons_append, List.nil_append]
      rw [normalFormsLoop_congr ps (d.map Prod.fst ++ [p.nf]) (p.nf :: d.map Prod.fst) (by intro x; simp [or_comm])]

/-- **C58.** The table of lemmas is the one described in the specification. -/
theorem c58_lemma_table (thresh : Rat) (ps : List (Parse Rat)) (t : List (Str × Rat)) : LemmaTable thresh ps t ↔ t = lemmaItems thresh ps := by
  have key : LemmaTable thresh ps (lemmaItems thresh ps) := by
    obtain ⟨h1, h2, -⟩ := c58_lemmas thresh ps
    refine ⟨h1, h2, ?_⟩
    have hT : ((lemmaWeights ps []).filter fun e => Score.le thresh e.2).Pairwise
        fun a b => (ps.map Parse.nf).idxOf a.1 < (ps.map Parse.nf).idxOf b.1 := by
      apply List.Pairwise.filter
      rw [← List.pairwise_map (f := Prod.fst) (R := fun a b : Str => (ps.map Parse.nf).idxOf a < (ps.map Parse.nf).idxOf b), lemmaWeights_keys]
      exact idxOf_normalFormsLoop ps []
    have := pairwise_insertionSort_stable (fun a b : Str × Rat => Score.le b.2 a.2 = true)
      (by intro a b; simpa [Score.le] using le_total b.2 a.2)
      (by intro a b c; simp only [Score.le, decide_eq_true_eq]; exact fun h1 h2 => h2.trans h1) _ _ hT
    refine this.imp ?_
    rintro a b ⟨h1, h2⟩
    simp only [Score.le, decide_eq_true_eq] at h1 h2
    rcases h1.lt_or_eq with h | h
    · exact .inl h
    · exact .inr ⟨h.symm, h2.resolve_left (by simp [h])⟩
  constructor
  · intro h
    have hp : t.Perm (lemmaItems thresh ps) := by
      rw [List.perm_ext_iff_of_nodup (List.Nodup.of_map _ h.once) (List.Nodup.of_map _ key.once)]
      rintro ⟨l, w⟩
      rw [h.entries, key.entries]
    refine hp.eq_of_pairwise ?_ h.order key.order
    rintro a b _ _ h1 h2
    exfalso
    rcases h1 with h1 | ⟨h1, h1'⟩ <;> rcases h2 with h2 | ⟨h2, h2'⟩
    · exact absurd h1 (not_lt.2 h2.le)
    · rw [h2] at h1; exact lt_irrefl _ h1
    · rw [h1] at h2; exact lt_irrefl _ h2
    · omega
  · rintro rfl; exact key

/-- **C58.** What is printed for a token: the token and, between braces and separated by bars, the items of the specification. -/
theorem c58_items (fmt : Rat → Str) (m : Morph Rat) (o : CliOpts Rat) (tok chunk : Str) : formatToken fmt m o tok = .ok chunk ↔
    ∃ items, Printed fmt m o tok items ∧ chunk = tok ++ c!"{" ++ joinC '|' items ++ c!"}" ++ (if o.newlines then c!"\n" else c!" ") := by
  have kl : ∀ seq, o.line tok seq = tok ++ c!"{" ++ joinC '|' seq ++ c!"}" ++ (if o.newlines then c!"\n" else c!" ") := by
    intro seq; simp [CliOpts.line]
  have hz : (Score.isZero o.thresh = true) ↔ o.thresh = 0 := by simp [Score.isZero]
  have hf : ∀ ps : List (Parse Rat), (ps.filter fun p => Score.le o.thresh p.score) = ps.filter fun p => decide (o.thresh ≤ p.score) := fun _ => rfl
  obtain ⟨sc, nf, tg, nl, th⟩ := o
  simp only at kl hz hf
  have ha : analysis fmt ⟨sc, nf, tg, nl, th⟩ = fun p => (if nf then p.nf ++ c!":" else []) ++ (if sc then fmt p.score ++ c!"=" else []) ++ p.tag.str := rfl
  constructor
  · intro h
    cases nf <;> cases tg
    · simp [formatToken] at h
    · by_cases hc : sc = false ∧ th = 0
      · obtain ⟨rfl, rfl⟩ := hc
        unfold formatToken at h
        rw [if_neg (by simp), if_pos (by simp [Score.isZero])] at h
        obtain ⟨ts, hts, h⟩ := (bind_ok_iff _ _ _).1 h
        cases h
        rw [kl]
        exact ⟨_, .tags ts rfl rfl rfl rfl hts, rfl⟩
      · have hx : sc = true ∨ th ≠ 0 := by
          cases sc
          · right; intro h0; exact hc ⟨rfl, h0⟩
          · left; rfl
        unfold formatToken at h
        rw [if_neg (by simp), if_neg (by simp only [Bool.and_eq_true, Bool.not_eq_true', hz]; tauto)] at h
        obtain ⟨ps, hps, h⟩ := (bind_ok_iff _ _ _).1 h
        refine ⟨_, .analyses ps rfl (.inr hx) hps, ?_⟩
        rw [ha]
        cases sc
        · cases h; rw [kl]; rfl
        · cases h; rw [kl]; simp [hf]
    · unfold formatToken at h
      rw [if_neg (by simp), if_neg (by simp)] at h
      obtain ⟨ps, hps, h⟩ := (bind_ok_iff _ _ _).1 h
      refine ⟨_, .lemmas ps _ rfl rfl hps ((c58_lemma_table _ _ _).2 rfl), ?_⟩
      cases sc
      · cases h; rw [kl]; simp
      · cases h; rw [kl]; rfl
    · unfold formatToken at h
      rw [if_neg (by simp), if_neg (by simp)] at h
      obtain ⟨ps, hps, h⟩ := (bind_ok_iff _ _ _).1 h
      refine ⟨_, .analyses ps rfl (.inl rfl) hps, ?_⟩
      rw [ha]
      cases sc
      · cases h; rw [kl]; simp [hf]
      · cases h; rw [kl]; simp [hf]
  · rintro ⟨items, hp, rfl⟩
    unfold formatToken
    cases hp with
    | tags ts hn ht hs h0 h =>
      simp only at hn ht hs h0
      subst hn ht hs
      rw [if_neg (by simp), if_pos (by simp [hz.2 h0]), h, ok_bind, kl]
      rfl
    | analyses ps ht hx h =>
      simp only at ht hx
      subst ht
      rw [if_neg (by simp), if_neg (by simp only [Bool.and_eq_true, Bool.not_eq_true', hz]; rcases hx with rfl | rfl | h0 <;> simp_all), h, ok_bind, ha]
      simp only [kl, hf]
      cases nf <;> cases sc
      · rfl
      · simp
      · simp
      · simp
    | lemmas ps t hn ht h hl =>
      simp only at hn ht
      subst hn ht
      rw [(c58_lemma_table _ _ _).1 hl, if_neg (by simp), if_neg (by simp), h, ok_bind]
      simp only [kl]
      cases sc
      · simp
      · rfl

/-- **C58.** Raising the threshold only removes analyses, and never changes their order: of two thresholds, the analyses printed for the
higher one are a sublist of those printed for the lower one. -/
theorem c58_threshold (t t' : Rat) (h : t ≤ t') (ps : List (Parse Rat)) :
    (ps.filter fun p => Score.le t' p.score).Sublist (ps.filter fun p => Score.le t p.score) ∧
    (lemmaItems t' ps).map Prod.fst ⊆ (lemmaItems t ps).map Prod.fst := by
  constructor
  · have : (ps.filter fun p => Score.le t' p.score) = (ps.filter fun p => Score.le t p.score).filter fun p => Score.le t' p.score := by
      rw [List.filter_filter]
      apply List.filter_congr
      intro p _
      simp only [Score.le]
      by_cases h' : t' ≤ p.score
      · simp [h', h.trans h']
      · simp [h']
    rw [this]
    exact List.filter_sublist
  · intro l hl
    obtain ⟨e, he, rfl⟩ := List.mem_map.1 hl
    obtain ⟨h1, h2, h3⟩ := ((c58_lemmas t' ps).2.1 e.1 e.2).1 he
    exact List.mem_map.2 ⟨e, ((c58_lemmas t ps).2.1 e.1 e.2).2 ⟨h1, h2, h.trans h3⟩, rfl⟩

/-- The command on the demo dictionary: lemmas only with a cache of one entry; lemmas and tags of a text that is already tokenized. -/
example : cliParse Demo.isWord (fun _ => []) Demo.morph ⟨false, true, false, true, 0⟩ true (.size 1) [c!"Кошек, кошек!\n"] =
      ([c!"Кошек{кошка}\n", c!",{,}\n", c!"кошек{кошка}\n", c!"!{!}\n"], none) ∧
    cliParse Demo.isWord (fun _ => []) Demo.morph ⟨false, true, true, false, 0⟩ false .unlim [c!" кошка \n", c!"\n", c!"кошек\n"] =
      ([c!"кошка{кошка:NOUN,anim,femn sing,nomn} ", c!"кошек{кошка:NOUN,anim,femn plur,gent} "], none) := by decide +kernel

end Verif
