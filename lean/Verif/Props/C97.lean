/-
C97 — no analysis is listed twice.
-/
import Verif.Props.C05
import Verif.Props.C08
import Verif.Props.C13
import Verif.Props.C42
import Verif.Props.C73
import Verif.Lemmas.Answering
import Verif.Lemmas.Renumber
import Mathlib.Data.List.Nodup

set_option linter.unusedSectionVars false

namespace Verif

variable {S : Type} [Score S]

/-- The constructor arguments of a unit list nothing twice: the tags of initials, the known prefixes. -/
def UnitCfg.Distinct : UnitCfg S → Prop
  | .firstName _ masc femn _ => ((masc ++ femn).map Tag.tuple).Nodup
  | .patronymic _ tags _ => (tags.map Tag.tuple).Nodup
  | .knownPrefix prefixes _ _ => prefixes.Nodup
  | _ => True

/-! ### Look-ups -/

theorem nodup_lookup {V : Type} (d : Dawg V) (sub : Subst) (hnd : d.Nodup) (hpr : sub.Proper) (w : Str) : (lookup d sub w).Nodup := by
  rw [lookup_flat]
  refine List.nodup_flatMap.2 ⟨?_, ?_⟩
  · intro v _
    have hvn : (d.vals v).Nodup := by
      unfold Dawg.vals
      refine List.Nodup.map_on ?_ (hnd.filter _)
      rintro ⟨a, b⟩ ha ⟨c, d⟩ hc e
      simp only [List.mem_filter, decide_eq_true_eq] at ha hc
      simp [ha.2, hc.2] at e ⊢
      exact e
    exact hvn.map fun a b e => by simpa using e
  · refine (nodup_variants _ hpr w).imp ?_
    intro a b hab
    simp only [Function.onFun, List.disjoint_left, List.mem_map, not_exists, not_and]
    rintro _ ⟨r, _, rfl⟩ r' _ e
    simp at e; exact hab e.1.symm

theorem nodup_dictParse (m : Morph S) (hnd : m.dict.words.Nodup) (hpr : m.sub.Proper) (u : UObj) (wl : Str) (ps : List (Parse S))
    (h : dictParse m u wl = .ok ps) : (ps.map Parse.stack).Nodup := by
  have hs : ps.map Parse.stack = (lookup m.dict.words m.sub wl).map fun e => .single (.dict u e.1 e.2.1 e.2.2) := by
    have hf := (mapE_ok_iff _ _ _).1 h
    generalize lookup m.dict.words m.sub wl = l at hf
    clear h
    induction hf with
    | nil => rfl
    | cons hb _ ih =>
      simp only [dictParse1, bind_ok_iff, pure_eq_ok, Except.ok.injEq] at hb
      obtain ⟨nf, _, t, _, rfl⟩ := hb
      rw [List.map_cons, List.map_cons, ih]
  rw [hs]
  refine (nodup_lookup _ _ hnd hpr wl).map ?_
  rintro ⟨a, b, c⟩ ⟨a', b', c'⟩ e
  simp only [Stack.single, Stack.push.injEq, Method.dict.injEq, true_and] at e
  simp [e]

/-! ### One unit -/

/-- What is compared: the way the analysis was made, and (with `b`) its tag. -/
def Parse.way (b : Bool) (p : Parse S) : Stack × List Str := (p.stack, if b then p.tag.tuple else [])

theorem nodup_way (b : Bool) {ps : List (Parse S)} (h : (ps.map Parse.stack).Nodup) : (ps.map (Parse.way b)).Nodup := by
  have : (ps.map (Parse.way b)).map Prod.fst = ps.map Parse.stack := by rw [List.map_map]; rfl
  exact List.Nodup.of_map Prod.fst (this ▸ h)

theorem nodup_initials (b : Bool) (u : UObj) (letters : List Str) (tags : List Tag) (score : S) (word wl : Str)
    (hn : (tags.map Tag.tuple).Nodup) (hb : word ∈ letters → b = true) :
    ((initialsParse u letters tags score word wl).map (Parse.way b)).Nodup := by
  unfold initialsParse
  split
  · next hl =>
    rw [hb hl, List.map_map]
    have : (tags.map (Parse.way true ∘ fun t => (⟨wl, t, wl, score, .single (.simple u word)⟩ : Parse S))).map Prod.snd = tags.map Tag.tuple := by
      rw [List.map_map]; rfl
    exact List.Nodup.of_map Prod.snd (this ▸ hn)
  · simp

theorem nodup_particle (u : UObj) (part : Str) (mult : S) (ps : List (Parse S)) (h : (ps.map Parse.stack).Nodup) :
    ((ps.map (particleDeco u part mult)).map Parse.stack).Nodup := by
  have : (ps.map (particleDeco u part mult)).map Parse.stack = (ps.map Parse.stack).map fun s => .push s (.simple u part) := by
    rw [List.map_map, List.map_map]; rfl
  rw [this]
  exact h.map fun a b e => by simpa using e

theorem nodup_prefix (u : UObj) (mult : S) (parseRest : Str → Except PyErr (List (Parse S))) (splits : List (Str × Str))
    (hs : splits.Pairwise fun s t => s.1 ≠ t.1) (hrec : ∀ s ∈ splits, ∀ ps, parseRest s.2 = .ok ps → (ps.map Parse.stack).Nodup)
    (out : List (Parse S)) (h : prefixCands u mult parseRest splits = .ok out) : (out.map Parse.stack).Nodup := by
  simp only [prefixCands, bind_ok_iff, pure_eq_ok, Except.ok.injEq] at h
  obtain ⟨ps, hps, rfl⟩ := h
  have hf := (mapE_ok_iff _ _ _).1 hps
  clear hps
  induction hf with
  | nil => simp
  | @cons s qs splits pss hb hrest ih =>
    obtain ⟨pre, rest⟩ := s
    simp only [bind_ok_iff, pure_eq_ok, Except.ok.injEq] at hb
    obtain ⟨r, hr, rfl⟩ := hb
    rw [List.pairwise_cons] at hs
    rw [List.flatten_cons, List.map_append]
    refine List.nodup_append.2 ⟨?_, ih hs.2 (fun s hs' => hrec s (List.mem_cons_of_mem _ hs')), ?_⟩
    · have h1 := hrec (pre, rest) (List.mem_cons_self ..) r hr
      have h2 : (prefixDeco u mult pre r).map Parse.stack =
          ((r.filter fun p => p.tag.isProductive).map Parse.stack).map fun s => .push s (.simple u pre) := by
        unfold prefixDeco; rw [List.map_map, List.map_map]; rfl
      rw [h2]
      refine List.Nodup.map (fun a b e => by simpa using e) ?_
      exact h1.sublist (List.filter_sublist.map _)
    · intro x hx y hy e
      subst e
      obtain ⟨p, hp, rfl⟩ := List.mem_map.1 hx
      obtain ⟨q, hq, he⟩ := List.mem_map.1 hy
      obtain ⟨qs, hqs, hq⟩ := List.mem_flatten.1 hq
      obtain ⟨⟨pre', rest'⟩, hs', hb'⟩ := forall₂_mem_right hrest hqs
      simp only [bind_ok_iff, pure_eq_ok, Except.ok.injEq] at hb'
      obtain ⟨r', _, rfl⟩ := hb'
      simp only [prefixDeco, List.mem_map] at hp hq
      obtain ⟨p', _, rfl⟩ := hp
      obtain ⟨q', _, rfl⟩ := hq
      simp only [Stack.push.injEq, Method.simple.injEq, true_and] at he
      exact hs.1 _ hs' he.2.symm

theorem nodup_hyphen (rec : Rec S) (u : UObj) (skip : List Str) (mult : S) (wl : Str)
    (hrec : ∀ x : Str, x <:+: wl → ∀ ps, rec.parse x = .ok ps → (ps.map Parse.stack).Nodup)
    (out : List (Parse S)) (h : hyphenParse rec u skip mult wl = .ok out) : (out.map Parse.stack).Nodup := by
  unfold hyphenParse at h
  split at h
  · next hsh =>
    obtain ⟨hw, _⟩ := hyphenShould_split _ _ hsh
    simp only [bind_ok_iff, pure_eq_ok, Except.ok.injEq] at h
    obtain ⟨lp, hlp, rp, hrp, rfl⟩ := h
    generalize hA : (splitHyphen wl).1 = left at *
    generalize hB : (splitHyphen wl).2 = right at *
    have nl := hrec left ⟨[], '-' :: right, by simp [hw]⟩ lp hlp
    have nr := hrec right ⟨left ++ ['-'], [], by simp [hw]⟩ rp hrp
    rw [List.map_append]
    refine List.nodup_append.2 ⟨?_, ?_, ?_⟩
    · unfold parseBoth
      rw [List.map_flatMap]
      refine List.nodup_flatMap.2 ⟨?_, ?_⟩
      · intro l _
        split
        · simp
        · rw [List.map_map]
          have : ∀ rs : List (Parse S), (rs.map Parse.stack).Nodup → (rs.map (Parse.stack ∘ fun r => (⟨l.word ++ '-' :: r.word, l.tag, l.nf ++ '-' :: r.nf,
              Score.mul l.score mult, .single (.both u l.stack r.stack)⟩ : Parse S))).Nodup := by
            intro rs hrs
            have e : rs.map (Parse.stack ∘ fun r => (⟨l.word ++ '-' :: r.word, l.tag, l.nf ++ '-' :: r.nf,
              Score.mul l.score mult, .single (.both u l.stack r.stack)⟩ : Parse S)) = (rs.map Parse.stack).map fun s => .single (.both u l.stack s) := by
              rw [List.map_map]; rfl
            rw [e]
            exact hrs.map fun a b e => by simpa [Stack.single] using e
          exact this _ (nr.sublist (List.filter_sublist.map _))
      · refine (List.pairwise_map.1 nl).imp ?_
        intro a b hab
        simp only [Function.onFun, List.disjoint_left, List.mem_map, not_exists, not_and]
        rintro _ ⟨p, hp, rfl⟩ q hq e
        split at hp
        · simp at hp
        · split at hq
          · simp at hq
          · obtain ⟨p', _, rfl⟩ := List.mem_map.1 hp
            obtain ⟨q', _, rfl⟩ := List.mem_map.1 hq
            simp only [Stack.single, Stack.push.injEq, Method.both.injEq, true_and] at e
            exact hab e.1.symm
    · unfold parseFixed
      have e : ∀ rs : List (Parse S), (rs.map fun r => (⟨left ++ '-' :: r.word, r.tag, left ++ '-' :: r.nf, Score.mul r.score mult,
          .single (.fixed u left r.stack)⟩ : Parse S)).map Parse.stack = (rs.map Parse.stack).map fun s => .single (.fixed u left s) := by
        intro rs; rw [List.map_map, List.map_map]; rfl
      rw [e]
      refine List.Nodup.map (fun a b e => by simpa [Stack.single] using e) ?_
      exact nr.sublist (List.filter_sublist.map _)
    · intro x hx y hy e
      subst e
      obtain ⟨p, hp, rfl⟩ := List.mem_map.1 hx
      obtain ⟨q, hq, he⟩ := List.mem_map.1 hy
      obtain ⟨_, _, _, _, _, _, rfl⟩ := parseBoth_mem _ _ _ _ _ hp
      obtain ⟨_, _, _, rfl⟩ := parseFixed_mem _ _ _ _ _ hq
      simp [Stack.single] at he
  · simp at h; subst h; simp

theorem wordSplits_distinct (w : Str) : (wordSplits w).Pairwise fun s t => s.1 ≠ t.1 := by
  unfold wordSplits
  rw [List.pairwise_map]
  refine List.Pairwise.imp_of_mem ?_ List.pairwise_lt_range
  intro i j hi hj hij e
  have := congrArg List.length e
  simp only [List.length_take, List.mem_range] at *
  omega

theorem nodup_suffix (m : Morph S) (rec : Rec S) (u : BUnit S) (word wl : Str) (seen : Seen) (mult : S) (minLen : Nat)
    (hk : u.cfg = .knownSuffix mult minLen) (r : List (Parse S) × Seen) (h : unitParse m rec u word wl seen = .ok r) :
    (r.1.map Parse.stack).Nodup := by
  obtain ⟨hn, _⟩ := (unitParse_seen m rec u word wl seen r h).2 (by simp [hk, UnitCfg.kind, UKind.predicts])
  simp only [unitParse, hk, suffixParse] at h
  split at h
  · simp at h; subst h; simp
  · simp only [bind_ok_iff, pure_eq_ok, Except.ok.injEq] at h
    obtain ⟨r', hr', ps, hps, rfl⟩ := h
    have key : ∀ p ∈ sortByScore ps, ∃ v para idx sfx, p.word = v ∧ m.dict.tagInfo para idx = .ok p.tag ∧
        p.stack = .push (.single (.dict u.inner v para idx)) (.simple u.obj sfx) := by
      intro p hp
      obtain ⟨⟨c, tot⟩, hc, hb⟩ := mapE_mem hps ((sortByScore_perm ps).mem_iff.1 hp)
      simp only [sfxBuild, bind_ok_iff, pure_eq_ok, Except.ok.injEq] at hb
      obtain ⟨nf, _, rfl⟩ := hb
      exact ⟨c.word, c.para, c.idx, c.suffix, rfl, by
        obtain ⟨ip, _, t, _, i, _, cs, hcs, hcc⟩ := sfxPrefixLoop_mem _ _ _ _ _ _ hr' _ hc
        exact (sfxCands_mem _ _ _ _ _ _ hcs _ hcc).2.1, rfl⟩
    rw [List.Nodup, List.pairwise_map] at hn ⊢
    refine hn.imp_of_mem ?_
    intro p q hp hq hne e
    obtain ⟨v, para, idx, sfx, h1, h2, h3⟩ := key p hp
    obtain ⟨v', para', idx', sfx', h1', h2', h3'⟩ := key q hq
    rw [h3, h3'] at e
    simp only [Stack.single, Stack.push.injEq, Method.dict.injEq, true_and] at e
    obtain ⟨⟨rfl, rfl, rfl⟩, _⟩ := e
    rw [h2] at h2'
    simp only [Except.ok.injEq] at h2'
    apply hne
    unfold Parse.key
    rw [h3, h3', h1, h1', h2']
    rfl

theorem nodup_unitParse (b : Bool) (m : Morph S) (hnd : m.dict.words.Nodup) (hpr : m.sub.Proper) (rec : Rec S) (u : BUnit S)
    (hu : u.cfg.Distinct) (word wl : Str)
    (hb : ∀ letters, (∃ masc femn score, u.cfg = .firstName letters masc femn score) ∨ (∃ tags score, u.cfg = .patronymic letters tags score) →
      word ∈ letters → b = true)
    (hrec : ∀ x : Str, x <:+: wl → ∀ ps, rec.parse x = .ok ps → (ps.map Parse.stack).Nodup) (seen : Seen) (r : List (Parse S) × Seen)
    (h : unitParse m rec u word wl seen = .ok r) : (r.1.map (Parse.way b)).Nodup := by
  have h0 := h
  unfold unitParse at h
  split at h
  · simp only [bind_ok_iff, pure_eq_ok, Except.ok.injEq] at h
    obtain ⟨ps, hps, rfl⟩ := h
    exact nodup_way b (nodup_dictParse m hnd hpr _ _ ps hps)
  · next letters masc femn score hk =>
    simp only [Except.ok.injEq] at h
    subst h
    rw [hk] at hu
    exact nodup_initials b _ _ _ _ _ _ hu (hb _ (.inl ⟨_, _, _, hk⟩))
  · next letters tags score hk =>
    simp only [Except.ok.injEq] at h
    subst h
    rw [hk] at hu
    exact nodup_initials b _ _ _ _ _ _ hu (hb _ (.inr ⟨_, _, hk⟩))
  iterate 4
    next hk =>
    simp only [bind_ok_iff, pure_eq_ok, Except.ok.injEq] at h
    obtain ⟨t, ht, rfl⟩ := h
    cases t <;> simp [shapeParse]
  · split at h
    · simp at h; subst h; simp
    · next rest part hsp =>
      simp only [bind_ok_iff, pure_eq_ok, Except.ok.injEq] at h
      obtain ⟨ps, hps, rfl⟩ := h
      obtain ⟨hw, _⟩ := particleSplit_some _ _ _ _ hsp
      have := hrec rest ⟨[], part, by simp [hw]⟩ ps hps
      exact nodup_way b ((nodup_particle u.obj part _ ps this).sublist ((addParses_sub _ _).map _))
  · simp only [bind_ok_iff, pure_eq_ok, Except.ok.injEq] at h
    obtain ⟨c, hc, rfl⟩ := h
    cases c <;> simp
  · simp only [bind_ok_iff, pure_eq_ok, Except.ok.injEq] at h
    obtain ⟨ps, hps, rfl⟩ := h
    exact nodup_way b (nodup_hyphen rec _ _ _ wl hrec ps hps)
  · next prefixes mult minRem hk =>
    simp only [bind_ok_iff, pure_eq_ok, Except.ok.injEq] at h
    obtain ⟨ps, hps, rfl⟩ := h
    rw [hk] at hu
    refine nodup_way b ((nodup_prefix _ _ _ _ ?_ ?_ ps hps).sublist ((addParses_sub _ _).map _))
    · exact (c42_splits_strict prefixes hu minRem wl).imp fun hlt e => by rw [e] at hlt; omega
    · rintro ⟨pre, rest⟩ hs qs hqs
      obtain ⟨hw, _⟩ := possibleSplits_mem _ _ _ _ _ hs
      exact hrec rest ⟨pre, [], by simp [hw]⟩ qs hqs
  · simp only [bind_ok_iff, pure_eq_ok, Except.ok.injEq] at h
    obtain ⟨ps, hps, rfl⟩ := h
    refine nodup_way b ((nodup_prefix _ _ _ _ (wordSplits_distinct wl) ?_ ps hps).sublist ((addParses_sub _ _).map _))
    intro s _ qs hqs
    exact nodup_dictParse m hnd hpr _ _ qs hqs
  · next mult minLen hk => exact nodup_way b (nodup_suffix m rec u word wl seen mult minLen hk r h0)
  · simp only [Except.ok.injEq] at h
    subst h
    split <;> simp

/-! ### All units, nested calls -/

theorem outer_way (b : Bool) {p q : Parse S} (h : p.way b = q.way b) : p.outer = q.outer := by
  unfold Parse.way at h
  simp only [Prod.mk.injEq] at h
  unfold Parse.outer
  rw [h.1]

theorem nodup_runParse (b : Bool) (m : Morph S) (rec : Rec S) (word wl : Str) (us : List (BUnit S × Bool)) (seen : Seen) (res out : List (Parse S))
    (hids : (us.map fun u => u.1.id).Nodup)
    (hu : ∀ u ∈ us, ∀ seen r, unitParse m rec u.1 word wl seen = .ok r → (r.1.map (Parse.way b)).Nodup)
    (hres : (res.map (Parse.way b)).Nodup) (hold : ∀ p ∈ res, ∀ u ∈ us, p.outer ≠ some u.1.obj)
    (h : runParse m rec word wl us seen res = .ok out) : (out.map (Parse.way b)).Nodup := by
  induction us generalizing seen res with
  | nil => simp [runParse] at h; subst h; exact hres
  | cons ut us ih =>
    obtain ⟨u, t⟩ := ut
    rw [runParse, bind_ok_iff] at h
    obtain ⟨r, hr, h⟩ := h
    have ho := unitParse_outer _ _ _ _ _ _ _ hr
    have n1 : ((res ++ r.1).map (Parse.way b)).Nodup := by
      rw [List.map_append]
      refine List.nodup_append.2 ⟨hres, hu _ (List.mem_cons_self ..) _ _ hr, ?_⟩
      intro x hx y hy e
      subst e
      obtain ⟨p, hp, rfl⟩ := List.mem_map.1 hx
      obtain ⟨q, hq, he⟩ := List.mem_map.1 hy
      refine hold p hp _ (List.mem_cons_self ..) ?_
      rw [← outer_way b he]
      exact ho q hq
    dsimp only at h
    split at h
    · simp at h; subst h; exact n1
    · rw [List.map_cons, List.nodup_cons] at hids
      refine ih _ _ hids.2 (fun v hv => hu v (List.mem_cons_of_mem _ hv)) n1 ?_ h
      intro p hp v hv
      rcases List.mem_append.1 hp with hp | hp
      · exact hold p hp v (List.mem_cons_of_mem _ hv)
      · rw [ho p hp]
        intro e
        simp only [BUnit.obj, Option.some.injEq, UObj.mk.injEq] at e
        exact hids.1 (List.mem_map.2 ⟨v, hv, by dsimp only; omega⟩)

theorem way_perm (b : Bool) {xs ys : List (Parse S)} (h : (xs.map Parse.core).Perm (ys.map Parse.core)) :
    (xs.map (Parse.way b)).Perm (ys.map (Parse.way b)) := by
  have e : ∀ l : List (Parse S), l.map (Parse.way b) = (l.map Parse.core).map fun c => (c.2.2.2, if b then c.2.1.tuple else []) := by
    intro l; rw [List.map_map]; rfl
  rw [e, e]
  exact h.map _

theorem way_false {ps : List (Parse S)} : (ps.map (Parse.way false)).Nodup ↔ (ps.map Parse.stack).Nodup := by
  have e : ps.map (Parse.way false) = (ps.map Parse.stack).map fun s => (s, []) := by rw [List.map_map]; rfl
  rw [e]
  exact List.nodup_map_iff (fun a b e => by simpa using e)

theorem nodup_analyze (m : Morph S) (hlow : m.env.LowerStable) (hup : m.UpperInitials) (hids : (m.units.map fun u => u.1.id).Nodup)
    (hdist : ∀ u ∈ m.units, u.1.cfg.Distinct) (hnd : m.dict.words.Nodup) (hpr : m.sub.Proper) (n : Nat) (w : Str) (ps : List (Parse S))
    (h : (analyze m n).parse w = .ok ps) (b : Bool)
    (hb : b = false → ∀ u ∈ m.units, ∀ letters, (∃ masc femn score, u.1.cfg = .firstName letters masc femn score) ∨
      (∃ tags score, u.1.cfg = .patronymic letters tags score) → w ∉ letters) :
    (ps.map (Parse.way b)).Nodup := by
  induction n generalizing w ps b with
  | zero => simp [analyze] at h
  | succ n ih =>
    have h : parseStep m (analyze m n) w = .ok ps := h
    obtain ⟨res, hres, hperm⟩ := parseStep_core m _ w ps h
    refine (way_perm b hperm).nodup_iff.2 ?_
    refine nodup_runParse b m (analyze m n) w _ m.units [] [] res hids ?_ (by simp) (by simp) hres
    intro u hu seen r hr
    refine nodup_unitParse b m hnd hpr (analyze m n) u.1 (hdist u hu) w _ ?_ ?_ seen r hr
    · intro letters hl hw
      cases b with
      | true => rfl
      | false => exact absurd hw (hb rfl u hu letters hl)
    · intro x hx qs hqs
      refine way_false.1 (ih x qs hqs false ?_)
      rintro - v hv letters hl hxl
      refine hup v hv x ?_ (hlow w x hx)
      rcases hl with ⟨a, c, d, hk⟩ | ⟨a, c, hk⟩
      · exact .inl ⟨_, _, _, _, hk, hxl⟩
      · exact .inr ⟨_, _, _, hk, hxl⟩

/-! ### Units made by the constructor -/

theorem units_ids {items : List (List (UnitSpec S))} {units : List (BUnit S × Bool)} (h : IsGroups (boundGroups items 0) units) :
    (units.map fun u => u.1.id).Nodup := by
  have e : units.map (fun u => u.1) = (boundGroups items 0).flatten := by
    obtain ⟨_, rfl⟩ := h
    rw [List.map_flatMap, List.flatten_eq_flatMap]
    refine List.flatMap_congr fun g _ => ?_
    apply List.ext_getElem?
    intro i
    simp only [List.getElem?_map, List.getElem?_mapIdx, Option.map_map]
    exact Option.map_id' ..
  have : units.map (fun u => u.1.id) = (boundGroups items 0).flatten.map BUnit.id := by rw [← e, List.map_map]; rfl
  rw [this]
  exact (boundGroups_ids items 0).1.imp fun h e => by omega

theorem default_distinct (m : Morph S) (hm : IsRu m ∨ IsUk m) : ∀ u ∈ m.units, u.1.cfg.Distinct := by
  have f1 : ((sixCases.map (firstNameTag (c!"masc")) ++ sixCases.map (firstNameTag (c!"femn"))).map Tag.tuple).Nodup := by decide +kernel
  have f2 : ((twelve patronymicTag).map Tag.tuple).Nodup := by decide +kernel
  rintro ⟨u, t⟩ hu
  rcases hm with ⟨cls, hm⟩ | ⟨cls, hm⟩
  all_goals
    obtain ⟨_, _, _, _, hgr⟩ := mkMorph_units hm
    obtain ⟨g, hg, hug⟩ := (mem_of_isGroups hgr u).1 ⟨t, hu⟩
    obtain ⟨g', hg', sp, hsp, he⟩ := mem_boundGroups _ _ g hg u hug
    dsimp only
    rw [he]
    clear he hug hg hu hgr hm
    have hsp' := List.mem_flatten.2 ⟨g', hg', hsp⟩
    clear hsp hg' g'
  · simp only [ruUnits, List.flatten_cons, List.flatten_nil, List.cons_append, List.nil_append, List.mem_cons, List.not_mem_nil, or_false] at hsp'
    rcases hsp' with rfl | rfl | rfl | rfl | rfl | rfl | rfl | rfl | rfl | rfl | rfl | rfl | rfl | rfl <;>
      first
        | (rw [firstName_bound]; exact f1)
        | (rw [patronymic_bound]; exact f2)
        | exact c42_default_nodup.1
        | trivial
  · simp only [ukUnits, List.flatten_cons, List.flatten_nil, List.cons_append, List.nil_append, List.mem_cons, List.not_mem_nil, or_false] at hsp'
    rcases hsp' with rfl | rfl | rfl | rfl | rfl | rfl | rfl | rfl | rfl | rfl | rfl | rfl | rfl <;>
      first
        | (rw [firstName_bound]; exact f1)
        | (rw [patronymic_bound]; exact f2)
        | exact c42_default_nodup.2
        | trivial

theorem default_letters (m : Morph S) (hm : IsRu m ∨ IsUk m) (letters : List Str) (u : BUnit S × Bool) (hu : u ∈ m.units)
    (hl : (∃ masc femn score, u.1.cfg = .firstName letters masc femn score) ∨ (∃ tags score, u.1.cfg = .patronymic letters tags score)) :
    m.initialLetters letters := by
  obtain ⟨u, t⟩ := u
  have key : ∀ items : List (List (UnitSpec S)), ∀ L, (∀ g ∈ items, ∀ sp ∈ g, ∀ l, (∃ p s, sp = .firstName l p s) ∨ (∃ p s, sp = .patronymic l p s) → l = L) →
      IsGroups (boundGroups items 0) m.units → letters = L := by
    intro items L hL hgr
    obtain ⟨g, hg, hug⟩ := (mem_of_isGroups hgr u).1 ⟨t, hu⟩
    obtain ⟨g', hg', sp, hsp, he⟩ := mem_boundGroups _ _ g hg u hug
    rcases hl with ⟨a, b, c, hk⟩ | ⟨a, b, hk⟩
    all_goals
      rw [show u.cfg = _ from hk] at he
      cases sp <;> simp only [UnitSpec.bound, UnitCfg.firstName.injEq, UnitCfg.patronymic.injEq, reduceCtorEq] at he
    · rw [he.1]; exact hL g' hg' _ hsp _ (.inl ⟨_, _, rfl⟩)
    · rw [he.1]; exact hL g' hg' _ hsp _ (.inr ⟨_, _, rfl⟩)
  rcases hm with hm | hm
  · have hm' := hm
    obtain ⟨cls, hm⟩ := hm
    refine .inl ⟨hm', key _ _ ?_ (mkMorph_units hm).2.2.2.2⟩
    simp [ruUnits]
  · have hm' := hm
    obtain ⟨cls, hm⟩ := hm
    refine .inr ⟨hm', key _ _ ?_ (mkMorph_units hm).2.2.2.2⟩
    simp [ukUnits]

/-! ### The property -/

/-- C97: `parse` of a default analyzer never lists two analyses with the same methods stack and the same tag (tags compared as
the library compares them), whatever the word, the P(t|w) data and the number of nested analyses — provided the dictionary
stores no record twice. -/
theorem c97_no_repeats (m : Morph S) (hm : IsRu m ∨ IsUk m) (hlow : m.env.LowerStable) (hcap : m.env.CapitalInitials)
    (hnd : m.dict.words.Nodup) (hpr : m.sub.Proper) (w : Str) (ps : List (Parse S)) (h : m.parse w = .ok ps) :
    ps.Pairwise fun p q => ¬ (p.tag.eqv q.tag = true ∧ p.stack = q.stack) := by
  have hids : (m.units.map fun u => u.1.id).Nodup := by
    rcases hm with ⟨cls, hm⟩ | ⟨cls, hm⟩ <;> exact units_ids (mkMorph_units hm).2.2.2.2
  have := nodup_analyze m hlow (default_upperInitials m hm hcap) hids (default_distinct m hm) hnd hpr _ w ps h true (by simp)
  refine (List.pairwise_map.1 this).imp ?_
  rintro p q hne ⟨h1, h2⟩
  apply hne
  simp only [Tag.eqv, decide_eq_true_eq, beq_iff_eq] at h1
  simp [Parse.way, h1, h2]

/-- For every word that is not one of the capital letters taken for initials, already the methods stacks differ: the stack
identifies the analysis among the analyses of the word.  (The six cases of an initial share one stack.) -/
theorem c97_stacks (m : Morph S) (hm : IsRu m ∨ IsUk m) (hlow : m.env.LowerStable) (hcap : m.env.CapitalInitials)
    (hnd : m.dict.words.Nodup) (hpr : m.sub.Proper) (w : Str) (hw : ∀ letters, m.initialLetters letters → w ∉ letters)
    (ps : List (Parse S)) (h : m.parse w = .ok ps) : ps.Pairwise fun p q => p.stack ≠ q.stack := by
  have hids : (m.units.map fun u => u.1.id).Nodup := by
    rcases hm with ⟨cls, hm⟩ | ⟨cls, hm⟩ <;> exact units_ids (mkMorph_units hm).2.2.2.2
  have := nodup_analyze m hlow (default_upperInitials m hm hcap) hids (default_distinct m hm) hnd hpr _ w ps h false
    (fun _ u hu letters hl => hw letters (default_letters m hm letters u hu hl))
  exact List.pairwise_map.1 (way_false.1 this)

/-- The same for an analyzer with any configured units whose arguments list nothing twice. -/
theorem c97_configured (env : Env) (dict : Dict) (cls : TagCls) (sub : Subst) (items : List (List (UnitSpec S)))
    (est : Option (List (Str × Nat))) (m : Morph S) (hm : mkMorph env dict cls sub items est = .ok m) (hlow : env.LowerStable)
    (hd : ∀ g ∈ items, ∀ sp ∈ g, sp.bound.Distinct)
    (hup : ∀ g ∈ items, ∀ sp ∈ g, ∀ letters, (∃ p s, sp = .firstName letters p s) ∨ (∃ p s, sp = .patronymic letters p s) →
      ∀ l ∈ letters, env.lower l ≠ l)
    (hnd : dict.words.Nodup) (hpr : sub.Proper) (w : Str) (ps : List (Parse S)) (h : m.parse w = .ok ps) :
    ps.Pairwise fun p q => ¬ (p.tag.eqv q.tag = true ∧ p.stack = q.stack) := by
  obtain ⟨e1, e2, e3, e4, hgr⟩ := mkMorph_units hm
  have horig : ∀ u ∈ m.units, ∃ g ∈ items, ∃ sp ∈ g, u.1.cfg = sp.bound := by
    rintro ⟨u, t⟩ hu
    obtain ⟨g, hg, hug⟩ := (mem_of_isGroups hgr u).1 ⟨t, hu⟩
    exact mem_boundGroups _ _ g hg u hug
  have := nodup_analyze m (e1 ▸ hlow) ?_ (units_ids hgr) ?_ (e2 ▸ hnd) (e3 ▸ hpr) _ w ps h true (by simp)
  · refine (List.pairwise_map.1 this).imp ?_
    rintro p q hne ⟨h1, h2⟩
    apply hne
    simp only [Tag.eqv, decide_eq_true_eq, beq_iff_eq] at h1
    simp [Parse.way, h1, h2]
  · rintro u hu l hl
    obtain ⟨g, hg, sp, hsp, he⟩ := horig u hu
    rw [e1]
    rcases hl with ⟨a, b, c, letters, hk, hll⟩ | ⟨a, b, letters, hk, hll⟩
    all_goals
      rw [hk] at he
      cases sp <;> simp only [UnitSpec.bound, UnitCfg.firstName.injEq, UnitCfg.patronymic.injEq, reduceCtorEq] at he
    · exact hup g hg _ hsp _ (.inl ⟨_, _, rfl⟩) l (he.1 ▸ hll)
    · exact hup g hg _ hsp _ (.inr ⟨_, _, rfl⟩) l (he.1 ▸ hll)
  · intro u hu
    obtain ⟨g, hg, sp, hsp, he⟩ := horig u hu
    rw [he]
    exact hd g hg sp hsp

/-! Non-vacuity (tests): the hypotheses of the demonstration analyzer; a word with several analyses, a compound, an initial;
and what a repeated record does. -/

example : IsRu Demo.morph3 ∧ Demo.morph3.dict.words.Nodup ∧ Demo.morph3.env.LowerStable ∧ Demo.morph3.env.CapitalInitials ∧ Demo.morph3.sub.Proper :=
  ⟨Demo.morph3_isRu, by decide +kernel, demoEnv_lowerStable, Demo.capitalInitials, c05_default_targets.2.2.1⟩
example : ([c!"кош", c!"кош-кош", c!"некош", c!"хренькош", c!"кош-то", c!"В"].map fun w => (Demo.morph3.parse w).toOption.map List.length) =
    [some 3, some 12, some 3, some 3, some 3, some 24] := by decide +kernel
-- the three analyses of `кош` agree in word, tag, normal form and score: only the stack tells them apart
example : (Demo.morph3.parse (c!"кош")).toOption.map (fun ps => (ps.map fun p => (p.word, p.tag, p.nf, p.score)).dedup.length) = some 1 := by
  decide +kernel

/-- The demonstration dictionary with every record stored twice. -/
def Demo.dict97 : Dict := { Demo.dict with words := Demo.dict.words ++ Demo.dict.words }
def Demo.morph97 : Morph Rat := { Demo.morph with dict := Demo.dict97 }

/-- Without the hypothesis on the dictionary an analysis can be listed twice. -/
theorem c97_needs_distinct : ∃ ps, Demo.morph97.parse (c!"кошка") = .ok ps ∧ ¬ ps.Pairwise fun p q => ¬ (p.tag.eqv q.tag = true ∧ p.stack = q.stack) := by
  have h : (match Demo.morph97.parse (c!"кошка") with
    | .ok ps => decide (¬ ps.Pairwise fun p q => ¬ (p.tag.eqv q.tag = true ∧ p.stack = q.stack))
    | .error _ => false) = true := by decide +kernel
  split at h
  · next ps hps => exact ⟨ps, hps, of_decide_eq_true h⟩
  · cases h

end Verif
