/-
C31 — joining linked lexemes keeps every form.
-/
import Verif.Lemmas.PyDict
import Mathlib.Logic.Relation
import Mathlib.Data.List.Sort
import Mathlib.Data.Finset.Card

namespace Verif
open Relation
variable {I : Type} [DecidableEq I]

/-! ### Specification -/

/-- The source dictionary has a link from `s` to `e` of a type other than 7, 21, 23, 27. -/
def Linked (p : Parsed I) (s e : I) : Prop :=
  ∃ t, (s, e, t) ∈ p.links ∧ t ∉ [c!"7", c!"21", c!"23", c!"27"]

/-- No chain of links leads from a lexeme back to it. -/
def Acyclic (p : Parsed I) : Prop := ∀ x, ¬ TransGen (Linked p) x x

/-- A lexeme no link leads to. -/
def Root (p : Parsed I) (r : I) : Prop := ∀ s, ¬ Linked p s r

/-- Both ends of every link are lexemes of the dictionary. -/
def LinksKnown (p : Parsed I) : Prop := ∀ s e, Linked p s e → s ∈ p.lexemes.map Prod.fst ∧ e ∈ p.lexemes.map Prod.fst

/-- The ids in the order in which the compiler lists lexemes. -/
def sortedIds (num : I → Int) (p : Parsed I) : List I := (p.lexemes.map Prod.fst).insertionSort fun a b => num a ≤ num b

/-! ### The `while` loop -/

theorem resolveN_mono (moves : List (I × I)) (n : Nat) (t r : I) (h : resolveN moves n t = some r) (k : Nat) :
    resolveN moves (n + k) t = some r := by
  induction n generalizing t with
  | zero => simp [resolveN] at h
  | succ n ih =>
    rw [show n + 1 + k = (n + k) + 1 by omega]
    unfold resolveN at h ⊢
    split <;> simp_all

/-- The keys visited by the loop. -/
inductive Path (moves : List (I × I)) : I → List I → I → Prop
  | stop (t : I) : dictGet t moves = none → Path moves t [] t
  | step (t t' : I) (l : List I) (r : I) : dictGet t moves = some t' → Path moves t' l r → Path moves t (t :: l) r

theorem path_of_resolveN (moves : List (I × I)) (n : Nat) (t r : I) (h : resolveN moves n t = some r) : ∃ l, Path moves t l r := by
  induction n generalizing t with
  | zero => simp [resolveN] at h
  | succ n ih =>
    unfold resolveN at h
    split at h
    · next h0 => simp at h; subst h; exact ⟨[], .stop _ h0⟩
    · next t' h0 =>
      obtain ⟨l, hl⟩ := ih t' h
      exact ⟨t :: l, .step _ _ _ _ h0 hl⟩

theorem resolveN_of_path (moves : List (I × I)) (t r : I) (l : List I) (h : Path moves t l r) : resolveN moves (l.length + 1) t = some r := by
  induction h with
  | stop t h => simp [resolveN, h]
  | step t t' l r h0 _ ih => rw [List.length_cons, resolveN]; simp [h0, ih]

theorem path_from_mem (moves : List (I × I)) (t r : I) (l : List I) (h : Path moves t l r) (x : I) (hx : x ∈ l) :
    ∃ l', l' <:+ l ∧ Path moves x l' r := by
  induction h with
  | stop => simp at hx
  | step t t' l r h0 hp ih =>
    rcases List.mem_cons.1 hx with rfl | hx
    · exact ⟨_, List.suffix_rfl, .step _ _ _ _ h0 hp⟩
    · obtain ⟨l', h1, h2⟩ := ih hx
      exact ⟨l', h1.trans (List.suffix_cons _ _), h2⟩

theorem path_nodup (moves : List (I × I)) (t r : I) (l : List I) (h : Path moves t l r) : ∃ l', l'.Nodup ∧ Path moves t l' r := by
  induction h with
  | stop t h => exact ⟨[], List.nodup_nil, .stop _ h⟩
  | step t t' l r h0 _ ih =>
    obtain ⟨l', hn, hp⟩ := ih
    by_cases ht : t ∈ l'
    · obtain ⟨l'', h1, h2⟩ := path_from_mem moves t' r l' hp t ht
      exact ⟨l'', hn.sublist h1.sublist, h2⟩
    · exact ⟨t :: l', List.nodup_cons.2 ⟨ht, hn⟩, .step _ _ _ _ h0 hp⟩

theorem path_keys (moves : List (I × I)) (t r : I) (l : List I) (h : Path moves t l r) : l ⊆ moves.map Prod.fst := by
  induction h with
  | stop => simp
  | step t t' l r h0 _ ih =>
    intro x hx
    rcases List.mem_cons.1 hx with rfl | hx
    · exact (dictGet_isSome_iff _ _).1 ⟨_, h0⟩
    · exact ih hx

/-- **C31, adequacy of "hangs".** The model's bounded loop reports no result exactly when the `while` loop, run for any number of
rounds, never leaves. -/
theorem c31_hang_adequate (moves : List (I × I)) (t : I) : resolve moves t = none ↔ ∀ n, resolveN moves n t = none := by
  refine ⟨fun h n => ?_, fun h => h _⟩
  cases hn : resolveN moves n t with
  | none => rfl
  | some r =>
    exfalso
    obtain ⟨l, hl⟩ := path_of_resolveN moves n t r hn
    obtain ⟨l', hnd, hp⟩ := path_nodup moves t r l hl
    have h1 : l'.length ≤ moves.length := by
      have := (List.subperm_of_subset hnd (path_keys moves t r l' hp)).length_le
      simpa using this
    have h2 := resolveN_mono moves _ t r (resolveN_of_path moves t r l' hp) (moves.length - l'.length)
    rw [show l'.length + 1 + (moves.length - l'.length) = moves.length + 1 by omega] at h2
    unfold resolve at h
    rw [h] at h2; simp at h2

/-! ### The invariant -/

theorem flat_dictSet {β : Type} (k : I) (v v' : List β) (d : List (I × List β)) (h : dictGet k d = some v) :
    ((dictSet k v' d).flatMap Prod.snd ++ v).Perm (d.flatMap Prod.snd ++ v') := by
  induction d with
  | nil => simp [dictGet] at h
  | cons e d ih =>
    obtain ⟨a, b⟩ := e
    unfold dictGet at h
    unfold dictSet
    split
    · next ha =>
      simp only [ha, if_true, Option.some.injEq] at h
      subst h
      simp only [List.flatMap_cons]
      calc v' ++ d.flatMap Prod.snd ++ b
          |>.Perm ((v' ++ d.flatMap Prod.snd) ++ b) := List.Perm.refl _
        _ |>.Perm (b ++ (v' ++ d.flatMap Prod.snd)) := List.perm_append_comm
        _ |>.Perm (b ++ (d.flatMap Prod.snd ++ v')) := List.Perm.append_left _ List.perm_append_comm
        _ = b ++ d.flatMap Prod.snd ++ v' := by simp
    · next ha =>
      rw [if_neg ha] at h
      simp only [List.flatMap_cons, List.append_assoc]
      exact List.Perm.append_left _ (ih h)

/-- What holds of the state after the links `done` have been processed. -/
structure JoinInv (p : Parsed I) (done : List (I × I × Str)) (st : List (I × Lexeme) × List (I × I)) : Prop where
  keys : st.1.map Prod.fst = p.lexemes.map Prod.fst
  up : ∀ x y, dictGet x st.2 = some y → TransGen (Linked p) y x
  moved : ∀ x, (∃ y, dictGet x st.2 = some y) ↔ ∃ s t, (s, x, t) ∈ done ∧ t ∉ EXCLUDED_LINK_TYPES
  empty : ∀ x y, dictGet x st.2 = some y → dictGet x st.1 = some []
  own : ∀ x old, dictGet x st.2 = none → dictGet x p.lexemes = some old → ∃ cur, dictGet x st.1 = some cur ∧ old <+: cur
  home : ∀ x old, dictGet x p.lexemes = some old → ∃ r cur, ReflTransGen (Linked p) r x ∧ dictGet r st.2 = none ∧
    dictGet r st.1 = some cur ∧ old <:+: cur
  perm : (st.1.flatMap Prod.snd).Perm (p.lexemes.flatMap Prod.snd)

theorem joinInv_start (p : Parsed I) : JoinInv p [] (p.lexemes, []) where
  keys := rfl
  up := by simp [dictGet]
  moved := by simp [dictGet]
  empty := by simp [dictGet]
  own := fun x old _ h => ⟨old, h, List.prefix_rfl⟩
  home := fun x old h => ⟨x, old, .refl, rfl, h, List.infix_rfl⟩
  perm := List.Perm.refl _

/-- In an acyclic dictionary the loop always ends. -/
theorem resolve_ends (p : Parsed I) (hac : Acyclic p) (moves : List (I × I)) (up : ∀ x y, dictGet x moves = some y → TransGen (Linked p) y x)
    (t : I) : ∃ r, resolve moves t = some r := by
  cases h : resolve moves t with
  | some r => exact ⟨r, rfl⟩
  | none =>
    exfalso
    have : ∀ n t, resolveN moves n t = none →
        ∃ l : List I, l.length = n ∧ (∀ x ∈ l, x ∈ moves.map Prod.fst ∧ ReflTransGen (Linked p) x t) ∧ l.Nodup := by
      intro n
      induction n with
      | zero => intro t _; exact ⟨[], rfl, by simp, List.nodup_nil⟩
      | succ n ih =>
        intro t ht
        unfold resolveN at ht
        split at ht
        · simp at ht
        · next t' h0 =>
          obtain ⟨l, h1, h2, h3⟩ := ih t' ht
          refine ⟨t :: l, by simp [h1], ?_, List.nodup_cons.2 ⟨fun hm => ?_, h3⟩⟩
          · intro x hx
            rcases List.mem_cons.1 hx with rfl | hx
            · exact ⟨(dictGet_isSome_iff _ _).1 ⟨_, h0⟩, .refl⟩
            · exact ⟨(h2 x hx).1, (h2 x hx).2.trans (up _ _ h0).to_reflTransGen⟩
          · exact hac t (TransGen.trans_right (h2 t hm).2 (up _ _ h0))
    obtain ⟨l, h1, h2, h3⟩ := this _ _ h
    have := (List.subperm_of_subset h3 (fun x hx => (h2 x hx).1)).length_le
    simp at this; omega

theorem resolveN_spec (p : Parsed I) (moves : List (I × I)) (up : ∀ x y, dictGet x moves = some y → TransGen (Linked p) y x)
    (n : Nat) (t r : I) (h : resolveN moves n t = some r) : dictGet r moves = none ∧ ReflTransGen (Linked p) r t := by
  induction n generalizing t with
  | zero => simp [resolveN] at h
  | succ n ih =>
    unfold resolveN at h
    split at h
    · next h0 => simp at h; subst h; exact ⟨h0, .refl⟩
    · next t' h0 =>
      obtain ⟨h1, h2⟩ := ih t' h
      exact ⟨h1, h2.trans (up _ _ h0).to_reflTransGen⟩

/-- One move keeps the invariant. -/
theorem joinInv_step (p : Parsed I) (hac : Acyclic p) (done : List (I × I × Str)) (st st' : List (I × Lexeme) × List (I × I))
    (hi : JoinInv p done st) (s e : I) (t : Str) (hl : Linked p s e) (ht : t ∉ EXCLUDED_LINK_TYPES) (h : moveLexeme st e s = .ok st') :
    JoinInv p (done ++ [(s, e, t)]) st' ∧ (s ∈ p.lexemes.map Prod.fst ∧ e ∈ p.lexemes.map Prod.fst) := by
  unfold moveLexeme at h
  split at h
  · simp at h
  · next lm hlm =>
    split at h
    · simp at h
    · next r hr =>
      split at h
      · simp at h
      · next target htg =>
        simp only [Except.ok.injEq] at h
        subst h
        obtain ⟨hrm, hrs⟩ := resolveN_spec p st.2 hi.up _ _ _ hr
        have hre : r ≠ e := by
          rintro rfl
          exact hac r (TransGen.tail' hrs hl)
        have hkr : r ∈ st.1.map Prod.fst := (dictGet_isSome_iff _ _).1 ⟨_, htg⟩
        have hke : e ∈ st.1.map Prod.fst := (dictGet_isSome_iff _ _).1 ⟨_, hlm⟩
        have hks : s ∈ p.lexemes.map Prod.fst := by
          cases hsm : dictGet s st.2 with
          | none =>
            unfold resolve resolveN at hr
            simp only [hsm, Option.some.injEq] at hr
            rw [hr, ← hi.keys]; exact hkr
          | some y =>
            have := hi.empty s y hsm
            rw [← hi.keys]; exact (dictGet_isSome_iff _ _).1 ⟨_, this⟩
        have get_e : dictGet e (dictSet e [] (dictSet r (target ++ lm) st.1)) = some [] := dictGet_dictSet_self _ _ _
        have get_r : dictGet r (dictSet e [] (dictSet r (target ++ lm) st.1)) = some (target ++ lm) := by
          rw [dictGet_dictSet_ne hre, dictGet_dictSet_self]
        have get_o : ∀ x, x ≠ e → x ≠ r → dictGet x (dictSet e [] (dictSet r (target ++ lm) st.1)) = dictGet x st.1 := by
          intro x h1 h2; rw [dictGet_dictSet_ne h1, dictGet_dictSet_ne h2]
        refine ⟨⟨?_, ?_, ?_, ?_, ?_, ?_, ?_⟩, hks, by rw [← hi.keys]; exact hke⟩
        · rw [keys_dictSet_mem, keys_dictSet_mem _ _ _ hkr, hi.keys]
          rw [keys_dictSet_mem _ _ _ hkr]; exact hke
        · intro x y hxy
          simp only [dictGet_dictSet] at hxy
          split at hxy
          · next hx =>
            simp only [Option.some.injEq] at hxy
            subst hxy; subst hx
            exact TransGen.tail' hrs hl
          · exact hi.up x y hxy
        · intro x
          simp only [dictGet_dictSet]
          by_cases hx : x = e
          · subst hx
            simp only [if_true, Option.some.injEq, exists_eq', true_iff]
            exact ⟨s, t, by simp, ht⟩
          · simp only [if_neg hx, hi.moved x]
            constructor
            · rintro ⟨s', t', h1, h2⟩; exact ⟨s', t', by simp [h1], h2⟩
            · rintro ⟨s', t', h1, h2⟩
              rcases List.mem_append.1 h1 with h1 | h1
              · exact ⟨s', t', h1, h2⟩
              · simp [hx] at h1
        · intro x y hxy
          simp only [dictGet_dictSet] at hxy
          by_cases hx : x = e
          · subst hx; exact get_e
          · rw [if_neg hx] at hxy
            have hxr : x ≠ r := by rintro rfl; rw [hrm] at hxy; simp at hxy
            show dictGet x (dictSet e [] (dictSet r (target ++ lm) st.1)) = some []
            rw [get_o x hx hxr]; exact hi.empty x y hxy
        · intro x old hx hold
          simp only [dictGet_dictSet] at hx
          split at hx
          · simp at hx
          · next hxe =>
            obtain ⟨cur, h1, h2⟩ := hi.own x old hx hold
            by_cases hxr : x = r
            · subst hxr
              rw [htg] at h1; simp only [Option.some.injEq] at h1; subst h1
              exact ⟨_, get_r, h2.trans (List.prefix_append _ _)⟩
            · exact ⟨cur, by rw [get_o x hxe hxr]; exact h1, h2⟩
        · intro x old hold
          obtain ⟨r0, cur, h1, h2, h3, h4⟩ := hi.home x old hold
          have rm : dictGet r (dictSet e r st.2) = none := by rw [dictGet_dictSet_ne hre]; exact hrm
          by_cases h0e : r0 = e
          · subst h0e
            rw [hlm] at h3; simp only [Option.some.injEq] at h3; subst h3
            exact ⟨r, _, (hrs.tail hl).trans h1, rm, get_r, h4.trans (List.suffix_append _ _).isInfix⟩
          · by_cases h0r : r0 = r
            · subst h0r
              rw [htg] at h3; simp only [Option.some.injEq] at h3; subst h3
              exact ⟨r0, _, h1, rm, get_r, h4.trans (List.prefix_append _ _).isInfix⟩
            · refine ⟨r0, cur, h1, ?_, ?_, h4⟩
              · simp only [dictGet_dictSet_ne h0e]; exact h2
              · rw [get_o r0 h0e h0r]; exact h3
        · refine List.Perm.trans ?_ hi.perm
          have e1 := flat_dictSet r target (target ++ lm) st.1 htg
          have e2 := flat_dictSet e lm [] (dictSet r (target ++ lm) st.1) (by rw [dictGet_dictSet_ne hre.symm]; exact hlm)
          rw [List.append_nil] at e2
          have e3 := (List.Perm.append_right target e2).trans e1
          rw [List.append_assoc] at e3
          exact (List.perm_append_right_iff (lm ++ target)).1 (e3.trans (List.Perm.append_left _ List.perm_append_comm))

theorem joinInv_loop (p : Parsed I) (hac : Acyclic p) (ls done : List (I × I × Str)) (hls : ∀ l ∈ ls, l ∈ p.links)
    (st st' : List (I × Lexeme) × List (I × I)) (hi : JoinInv p done st) (h : joinLoop ls st = .ok st') :
    JoinInv p (done ++ ls) st' ∧
      ∀ l ∈ ls, l.2.2 ∉ EXCLUDED_LINK_TYPES → l.1 ∈ p.lexemes.map Prod.fst ∧ l.2.1 ∈ p.lexemes.map Prod.fst := by
  induction ls generalizing done st with
  | nil => simp only [joinLoop, Except.ok.injEq] at h; subst h; simpa using hi
  | cons l ls ih =>
    obtain ⟨s, e, t⟩ := l
    unfold joinLoop at h
    rw [show done ++ (s, e, t) :: ls = (done ++ [(s, e, t)]) ++ ls by simp]
    split at h
    · next ht =>
      have hi' : JoinInv p (done ++ [(s, e, t)]) st := by
        refine ⟨hi.keys, hi.up, fun x => ?_, hi.empty, hi.own, hi.home, hi.perm⟩
        rw [hi.moved x]
        constructor
        · rintro ⟨s', t', h1, h2⟩; exact ⟨s', t', by simp [h1], h2⟩
        · rintro ⟨s', t', h1, h2⟩
          rcases List.mem_append.1 h1 with h1 | h1
          · exact ⟨s', t', h1, h2⟩
          · simp only [List.mem_singleton, Prod.mk.injEq] at h1
            rw [h1.2.2] at h2; exact absurd ht h2
      obtain ⟨h1, h2⟩ := ih _ (fun l hl => hls l (by simp [hl])) st hi' h
      refine ⟨h1, fun l hl hle => ?_⟩
      rcases List.mem_cons.1 hl with rfl | hl
      · exact absurd ht hle
      · exact h2 l hl hle
    · next ht =>
      split at h
      · simp at h
      · next st1 hst1 =>
        have hlk : Linked p s e := ⟨t, hls _ (by simp), ht⟩
        obtain ⟨hi', hk⟩ := joinInv_step p hac done st st1 hi s e t hlk ht hst1
        obtain ⟨h1, h2⟩ := ih _ (fun l hl => hls l (by simp [hl])) st1 hi' h
        refine ⟨h1, fun l hl hle => ?_⟩
        rcases List.mem_cons.1 hl with rfl | hl
        · exact hk
        · exact h2 l hl hle

/-- The loop over the links of an acyclic dictionary ends: with a result, or with `KeyError` when an id is unknown. -/
theorem joinLoop_outcome (p : Parsed I) (hac : Acyclic p) (ls done : List (I × I × Str)) (hls : ∀ l ∈ ls, l ∈ p.links)
    (st : List (I × Lexeme) × List (I × I)) (hi : JoinInv p done st) :
    (∃ st', joinLoop ls st = .ok st') ∨ (joinLoop ls st = .error (.raised .keyError) ∧ ¬ LinksKnown p) := by
  induction ls generalizing done st with
  | nil => exact .inl ⟨st, rfl⟩
  | cons l ls ih =>
    obtain ⟨s, e, t⟩ := l
    unfold joinLoop
    split
    · next ht =>
      refine ih (done ++ [(s, e, t)]) (fun l hl => hls l (by simp [hl])) st ?_
      refine ⟨hi.keys, hi.up, fun x => ?_, hi.empty, hi.own, hi.home, hi.perm⟩
      rw [hi.moved x]
      constructor
      · rintro ⟨s', t', h1, h2⟩; exact ⟨s', t', by simp [h1], h2⟩
      · rintro ⟨s', t', h1, h2⟩
        rcases List.mem_append.1 h1 with h1 | h1
        · exact ⟨s', t', h1, h2⟩
        · simp only [List.mem_singleton, Prod.mk.injEq] at h1
          rw [h1.2.2] at h2; exact absurd ht h2
    · next ht =>
      have hlk : Linked p s e := ⟨t, hls _ (by simp), ht⟩
      cases hm : moveLexeme st e s with
      | ok st1 =>
        exact ih (done ++ [(s, e, t)]) (fun l hl => hls l (by simp [hl])) st1 (joinInv_step p hac done st st1 hi s e t hlk ht hm).1
      | error x =>
        right
        obtain ⟨r, hr⟩ := resolve_ends p hac st.2 hi.up s
        unfold moveLexeme at hm
        split at hm
        · next h0 =>
          simp only [Except.error.injEq] at hm
          subst hm
          refine ⟨rfl, fun hk => ?_⟩
          rw [dictGet_none_iff, hi.keys] at h0
          exact h0 (hk s e hlk).2
        · rw [hr] at hm
          simp only at hm
          split at hm
          · next h0 =>
            simp only [Except.error.injEq] at hm
            subst hm
            refine ⟨rfl, fun hk => ?_⟩
            rw [dictGet_none_iff, hi.keys] at h0
            apply h0
            obtain ⟨_, hrs⟩ := resolveN_spec p st.2 hi.up _ _ _ hr
            rcases ReflTransGen.cases_head hrs with rfl | ⟨y, hy, _⟩
            · exact (hk _ _ hlk).1
            · exact (hk _ _ hy).1
          · simp at hm

theorem sorted_map (num : I → Int) (ids : List I) (f : I → Lexeme) :
    ((ids.map fun i => (i, f i)).insertionSort fun a b => num a.1 ≤ num b.1).map Prod.snd =
      (ids.insertionSort fun a b => num a ≤ num b).map f := by
  have ins : ∀ (a : I) (l : List I), (l.map fun i => (i, f i)).orderedInsert (fun a b => num a.1 ≤ num b.1) (a, f a) =
      (l.orderedInsert (fun a b => num a ≤ num b) a).map fun i => (i, f i) := by
    intro a l
    induction l with
    | nil => rfl
    | cons b l ih =>
      simp only [List.map_cons, List.orderedInsert_cons]
      split
      · simp
      · simp [ih]
  have : (ids.map fun i => (i, f i)).insertionSort (fun a b => num a.1 ≤ num b.1) =
      (ids.insertionSort fun a b => num a ≤ num b).map fun i => (i, f i) := by
    induction ids with
    | nil => rfl
    | cons a l ih => rw [List.map_cons, List.insertionSort_cons, ih, ins, List.insertionSort_cons]
  rw [this, List.map_map]; rfl

/-- **C31.** For acyclic links between existing lexemes the join ends, and there is an assignment of the forms to lexemes such that:
the result lists the non-empty lexemes in the order of the ids; a lexeme that some link leads to becomes empty; a root keeps its own
forms, in front; the forms of every lexeme are, together and in order, in the lexeme of a root from which links lead to it; and
altogether the forms are those of the source. -/
theorem c31_join (num : I → Int) (p : Parsed I) (hids : (p.lexemes.map Prod.fst).Nodup) (hac : Acyclic p) (hk : LinksKnown p) :
    ∃ (ls : List Lexeme) (home : I → Lexeme), joinLexemes num p = .ok ls ∧
      ls = ((sortedIds num p).map home).filter (· ≠ []) ∧
      (∀ x, (∃ s, Linked p s x) → home x = []) ∧
      (∀ r own, (r, own) ∈ p.lexemes → Root p r → own <+: home r) ∧
      (∀ x own, (x, own) ∈ p.lexemes → ∃ r, Root p r ∧ ReflTransGen (Linked p) r x ∧ own <:+: home r) ∧
      ls.flatten.Perm (p.lexemes.map Prod.snd).flatten := by
  rcases joinLoop_outcome p hac p.links [] (fun _ h => h) _ (joinInv_start p) with ⟨st, hst⟩ | ⟨_, hn⟩
  swap
  · exact absurd hk hn
  obtain ⟨hi, -⟩ := joinInv_loop p hac p.links [] (fun _ h => h) _ st (joinInv_start p) hst
  rw [List.nil_append] at hi
  have hnd : (st.1.map Prod.fst).Nodup := by rw [hi.keys]; exact hids
  let home : I → Lexeme := fun x => (dictGet x st.1).getD []
  have hst1 : st.1 = (st.1.map Prod.fst).map fun i => (i, home i) := by
    rw [List.map_map]
    conv_lhs => rw [← List.map_id st.1]
    apply List.map_congr_left
    intro e he
    simp only [id, Function.comp, home, dictGet_of_mem e.1 st.1 e.2 hnd he, Option.getD_some]
  have hroot : ∀ x, dictGet x st.2 = none → Root p x := by
    rintro x hx s ⟨t, h1, h2⟩
    obtain ⟨y, hy⟩ := (hi.moved x).2 ⟨s, t, h1, h2⟩
    rw [hx] at hy; simp at hy
  have hlist : ((st.1.insertionSort fun a b => num a.1 ≤ num b.1).map Prod.snd).filter (· ≠ []) =
      ((sortedIds num p).map home).filter (· ≠ []) := by
    conv_lhs => rw [hst1, sorted_map]
    rw [hi.keys]; rfl
  refine ⟨_, home, ?_, hlist, ?_, ?_, ?_, ?_⟩
  · unfold joinLexemes; rw [hst]
  · rintro x ⟨s, t, h1, h2⟩
    obtain ⟨y, hy⟩ := (hi.moved x).2 ⟨s, t, h1, h2⟩
    simp [home, hi.empty x y hy]
  · intro r own hown hr
    have hrm : dictGet r st.2 = none := by
      cases hc : dictGet r st.2 with
      | none => rfl
      | some y =>
        obtain ⟨s, t, h1, h2⟩ := (hi.moved r).1 ⟨y, hc⟩
        exact absurd ⟨t, h1, h2⟩ (hr s)
    obtain ⟨cur, h1, h2⟩ := hi.own r own hrm (dictGet_of_mem r p.lexemes own hids hown)
    simpa [home, h1] using h2
  · intro x own hown
    obtain ⟨r, cur, h1, h2, h3, h4⟩ := hi.home x own (dictGet_of_mem x p.lexemes own hids hown)
    exact ⟨r, hroot r h2, h1, by simpa [home, h3] using h4⟩
  · have hf : ∀ l : List Lexeme, (l.filter (· ≠ [])).flatten = l.flatten := by
      intro l
      induction l with
      | nil => rfl
      | cons a l ih =>
        by_cases ha : a = []
        · subst ha; simpa using ih
        · rw [List.filter_cons_of_pos (by simpa using ha), List.flatten_cons, List.flatten_cons, ih]
    rw [hf]
    have : (st.1.flatMap Prod.snd) = (st.1.map Prod.snd).flatten := by rw [List.flatMap_def]
    have h2 : (p.lexemes.flatMap Prod.snd) = (p.lexemes.map Prod.snd).flatten := by rw [List.flatMap_def]
    refine List.Perm.trans ?_ (h2 ▸ this ▸ hi.perm)
    exact ((List.perm_insertionSort _ st.1).map Prod.snd).flatten

/-- Acyclic links, one of which mentions an unknown lexeme: `KeyError`. -/
theorem c31_unknown (num : I → Int) (p : Parsed I) (hac : Acyclic p) (hk : ¬ LinksKnown p) :
    joinLexemes num p = .error (.raised .keyError) := by
  rcases joinLoop_outcome p hac p.links [] (fun _ h => h) _ (joinInv_start p) with ⟨st, hst⟩ | ⟨h, _⟩
  · obtain ⟨-, hn⟩ := joinInv_loop p hac p.links [] (fun _ h => h) _ st (joinInv_start p) hst
    refine absurd ?_ hk
    rintro s e ⟨t, h1, h2⟩
    exact hn (s, e, t) h1 h2
  · unfold joinLexemes; rw [h]

/-- Links of the types 7, 21, 23 and 27 have no effect. -/
theorem c31_excluded (num : I → Int) (p : Parsed I) :
    joinLexemes num p = joinLexemes num ⟨p.lexemes, p.links.filter fun l => l.2.2 ∉ [c!"7", c!"21", c!"23", c!"27"]⟩ := by
  have : ∀ (ls : List (I × I × Str)) (st : List (I × Lexeme) × List (I × I)),
      joinLoop ls st = joinLoop (ls.filter fun l => l.2.2 ∉ [c!"7", c!"21", c!"23", c!"27"]) st := by
    intro ls
    induction ls with
    | nil => intro st; rfl
    | cons l ls ih =>
      obtain ⟨s, e, t⟩ := l
      intro st
      by_cases ht : t ∈ EXCLUDED_LINK_TYPES
      · rw [List.filter_cons_of_neg (by rw [decide_eq_true_eq, not_not]; exact ht), joinLoop, if_pos ht, ih]
      · rw [List.filter_cons_of_pos (by rw [decide_eq_true_eq]; exact ht), joinLoop, joinLoop, if_neg ht, if_neg ht]
        cases moveLexeme st e s with
        | error x => rfl
        | ok st' => exact ih st'
  unfold joinLexemes
  rw [this]

/-! ### Non-vacuity, and what happens with cycles -/

/-- Three lexemes in a chain 1 → 2 → 3 and an excluded link back, given in an unfavourable order. -/
def chainDemo : Parsed Nat where
  lexemes := [(3, [(c!"c", c!"C")]), (1, [(c!"a", c!"A")]), (2, [(c!"b", c!"B"), (c!"bb", c!"B")]), (4, [(c!"d", c!"D")])]
  links := [(2, 3, c!"3"), (1, 2, c!"4"), (3, 1, c!"21")]

theorem chainDemo_acyclic : Acyclic chainDemo := by
  have hlt : ∀ a b, Linked chainDemo a b → a < b := by
    rintro a b ⟨t, h, ht⟩
    simp only [chainDemo, List.mem_cons, Prod.mk.injEq, List.not_mem_nil, or_false] at h
    rcases h with ⟨rfl, rfl, rfl⟩ | ⟨rfl, rfl, rfl⟩ | ⟨rfl, rfl, rfl⟩
    · decide
    · decide
    · exact absurd (by decide) ht
  have : ∀ a b, TransGen (Linked chainDemo) a b → a < b := by
    intro a b h
    induction h with
    | single h => exact hlt _ _ h
    | tail _ h ih => exact lt_trans ih (hlt _ _ h)
  exact fun x h => lt_irrefl _ (this x x h)

theorem chainDemo_known : LinksKnown chainDemo := by
  rintro a b ⟨t, h, -⟩
  simp only [chainDemo, List.mem_cons, Prod.mk.injEq, List.not_mem_nil, or_false] at h
  rcases h with ⟨rfl, rfl, rfl⟩ | ⟨rfl, rfl, rfl⟩ | ⟨rfl, rfl, rfl⟩ <;> decide

example : joinLexemes (fun n : Nat => (n : Int)) chainDemo =
    .ok [[(c!"a", c!"A"), (c!"b", c!"B"), (c!"bb", c!"B"), (c!"c", c!"C")], [(c!"d", c!"D")]] := by decide +kernel

/-- Two lexemes that link to each other: the forms of both are silently lost. -/
theorem c31_cycle_loses : joinLexemes (fun n : Nat => (n : Int))
    ⟨[(1, [(c!"a", c!"A")]), (2, [(c!"b", c!"B")])], [(1, 2, c!"1"), (2, 1, c!"1")]⟩ = .ok [] := by decide +kernel

/-- One more link to such a pair, and the compiler never ends. -/
theorem c31_cycle_hangs : joinLexemes (fun n : Nat => (n : Int))
    ⟨[(1, [(c!"a", c!"A")]), (2, [(c!"b", c!"B")]), (3, [(c!"c", c!"C")])], [(1, 2, c!"1"), (2, 1, c!"1"), (1, 3, c!"1")]⟩ =
    .error .hangs := by decide +kernel

end Verif
