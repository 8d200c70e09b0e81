/-
C102 — the parse command as a filter: endless input, failing input, failing output.
-/
import Verif.Props.C68
import Verif.Model.Stream

set_option linter.unusedSectionVars false

namespace Verif

/-! ### What should have happened -/

/-- `lines` are the first lines the input gives. -/
def FirstLines (src : Nat → Input) (lines : List Str) : Prop := ∀ (i : Nat) (l : Str), lines[i]? = some l → src i = .line l

/-- The situation of the process: it has read `lines`, their tokens are `done` and then `rest`, and it has written `out`. -/
inductive Situation (k : Conv Rat) (m : Morph Rat) (o : CliOpts Rat) (src : Nat → Input) (sink : Nat → Option (PyErr × Nat)) (lines done rest out : List Str) :
    Option (Option PyErr) → Prop
  /-- it is running: the chunks of the tokens done, one each, in order, are written -/
  | running : List.Forall₂ (ChunkOf k m o) done out → Situation k m o src sink lines done rest out none
  /-- it is finished: the input is exhausted, and the chunks of all tokens are written -/
  | finished : List.Forall₂ (ChunkOf k m o) done out → rest = [] → src lines.length = .eof → Situation k m o src sink lines done rest out (some none)
  /-- the input failed, when the chunks of all tokens before were written -/
  | input (e : PyErr) : List.Forall₂ (ChunkOf k m o) done out → rest = [] → src lines.length = .fails e →
      Situation k m o src sink lines done rest out (some (some e))
  /-- a token cannot be analyzed; the chunks of those before it are written -/
  | token (e : PyErr) (t : Str) (ts : List Str) : List.Forall₂ (ChunkOf k m o) done out → rest = t :: ts → (m.parse t = .error e ∨ m.tag t = .error e) →
      (∀ c, ¬ ChunkOf k m o t c) →
      Situation k m o src sink lines done rest out (some (some e))
  /-- writing the chunk of the next token failed half way; those before it are written -/
  | output (e : PyErr) (t : Str) (ts before : List Str) (chunk : Str) (j : Nat) : List.Forall₂ (ChunkOf k m o) done before → rest = t :: ts →
      ChunkOf k m o t chunk → sink before.length = some (e, j) → out = before ++ [chunk.take j] →
      Situation k m o src sink lines done rest out (some (some e))

/-! ### The invariant -/

theorem iterTokens_line (isWord : Char → Bool) (e : Env) (tokenize : Bool) (lines : List Str) (l : Str) :
    iterTokens isWord e tokenize (lines ++ [l]) = iterTokens isWord e tokenize lines ++ lineTokens isWord e tokenize l := by
  unfold iterTokens lineTokens
  split
  · simp
  · simp only [List.map_append, List.filter_append, List.map_cons, List.map_nil, List.filter_cons, List.filter_nil]
    congr 1
    cases (pyStrip e l).isEmpty <;> simp

structure StreamInv (k : Conv Rat) (m : Morph Rat) (o : CliOpts Rat) (tokenize : Bool) (src : Nat → Input) (sink : Nat → Option (PyErr × Nat))
    (s : StreamState) (lines done : List Str) : Prop where
  read : lines.length = s.pos
  first : FirstLines src lines
  tokens : iterTokens k.isWord m.env tokenize lines = done ++ s.toks
  sit : Situation k m o src sink lines done s.toks s.out s.ended
  cache : ∀ e ∈ s.cache, formatToken k.fmt m o e.1 = .ok e.2
  taken : s.ended = none → ∀ i < s.out.length, sink i = none
  why : ∀ e, s.ended = some (some e) → (∃ i, src i = .fails e) ∨ (∃ i, sink i ≠ none) ∨ ∃ t ts, s.toks = t :: ts ∧ formatToken k.fmt m o t = .error e

theorem firstLines_snoc {src : Nat → Input} {lines : List Str} {l : Str} (h : FirstLines src lines) (hl : src lines.length = .line l) :
    FirstLines src (lines ++ [l]) := by
  intro i x hx
  by_cases hi : i < lines.length
  · rw [List.getElem?_append_left hi] at hx; exact h i x hx
  · rw [List.getElem?_append_right (by omega)] at hx
    have : i = lines.length := by
      have := (List.getElem?_eq_some_iff.1 hx).1
      simp at this; omega
    subst this
    simp at hx; rw [← hx]; exact hl

theorem formatToken_error (fmt : Rat → Str) (m : Morph Rat) (o : CliOpts Rat) (hc : o.normalForm = true ∨ o.tag = true) (t : Str) (e : PyErr)
    (h : formatToken fmt m o t = .error e) : m.parse t = .error e ∨ m.tag t = .error e := by
  unfold formatToken at h
  rw [if_neg (by rcases hc with h | h <;> simp [h])] at h
  split at h
  · cases ht : m.tag t with
    | error e' => rw [ht] at h; cases h; exact .inr rfl
    | ok ts => rw [ht] at h; cases h
  · cases hp : m.parse t with
    | error e' => rw [hp] at h; cases h; exact .inl rfl
    | ok ps =>
      rw [hp, ok_bind] at h
      simp only at h
      repeat' split at h
      all_goals cases h

theorem streamInv_step (k : Conv Rat) (m : Morph Rat) (o : CliOpts Rat) (ho : o.newlines = true) (hc : o.normalForm = true ∨ o.tag = true) (tokenize : Bool) (c : CacheArg)
    (src : Nat → Input) (sink : Nat → Option (PyErr × Nat)) (s : StreamState) (lines done : List Str) (h : StreamInv k m o tokenize src sink s lines done) :
    ∃ lines' done', StreamInv k m o tokenize src sink (streamStep k.isWord k.fmt m o tokenize c src sink s) lines' done' := by
  obtain ⟨toks, cache, pos, out, ended⟩ := s
  obtain ⟨h1, h2, h3, h4, h5, h6, h7⟩ := h
  dsimp only at h1 h3 h4 h5 h6 h7
  cases ended with
  | some r => exact ⟨lines, done, h1, h2, h3, h4, h5, h6, h7⟩
  | none =>
  cases h4 with
  | running hd =>
  cases toks with
  | nil =>
    cases hs : src pos with
    | line l =>
      refine ⟨lines ++ [l], done, ?_⟩
      simp only [streamStep, hs]
      refine ⟨by simp [h1], firstLines_snoc h2 (h1 ▸ hs), ?_, .running hd, h5, fun _ => h6 rfl, nofun⟩
      rw [iterTokens_line, h3, List.append_nil]
    | eof =>
      refine ⟨lines, done, ?_⟩
      simp only [streamStep, hs]
      exact ⟨h1, h2, h3, .finished hd rfl (h1 ▸ hs), h5, nofun, nofun⟩
    | fails e =>
      refine ⟨lines, done, ?_⟩
      simp only [streamStep, hs]
      exact ⟨h1, h2, h3, .input e hd rfl (h1 ▸ hs), h5, nofun, fun e' he => .inl ⟨pos, by simp only [Option.some.injEq] at he; rw [← he]; exact hs⟩⟩
  | cons t ts =>
    obtain ⟨hsound, hcache⟩ := cachedCall_sound c (formatToken k.fmt m o) t cache h5
    cases hcall : cachedCall c (formatToken k.fmt m o) t cache with
    | mk r cache' =>
    rw [hcall] at hsound hcache
    dsimp only at hsound hcache
    cases r with
    | error e =>
      refine ⟨lines, done, ?_⟩
      simp only [streamStep, hcall]
      refine ⟨h1, h2, h3, .token e t ts hd rfl (formatToken_error k.fmt m o hc t e hsound.symm) ?_, hcache, nofun,
        fun e' he => .inr (.inr ⟨t, ts, rfl, by simp only [Option.some.injEq] at he; rw [← he]; exact hsound.symm⟩)⟩
      intro ch hch
      rw [(chunkOf_iff ho t ch).2 hch] at hsound
      cases hsound
    | ok chunk =>
      have hch := (chunkOf_iff ho t chunk).1 hsound.symm
      cases hs : sink out.length with
      | some ej =>
        obtain ⟨e, j⟩ := ej
        refine ⟨lines, done, ?_⟩
        simp only [streamStep, hcall, hs]
        exact ⟨h1, h2, h3, .output e t ts out chunk j hd rfl hch hs rfl, hcache, nofun, fun _ _ => .inr (.inl ⟨out.length, by rw [hs]; simp⟩)⟩
      | none =>
        refine ⟨lines, done ++ [t], ?_⟩
        simp only [streamStep, hcall, hs]
        refine ⟨h1, h2, by rw [h3, List.append_assoc]; rfl, .running (List.rel_append hd (.cons hch .nil)), hcache, fun _ i hi => ?_, nofun⟩
        rw [List.length_append, List.length_singleton] at hi
        by_cases hi' : i < out.length
        · exact h6 rfl i hi'
        · rw [show i = out.length by omega]; exact hs

theorem streamInv_run (k : Conv Rat) (m : Morph Rat) (o : CliOpts Rat) (ho : o.newlines = true) (hc : o.normalForm = true ∨ o.tag = true)
    (tokenize : Bool) (c : CacheArg) (src : Nat → Input) (sink : Nat → Option (PyErr × Nat)) (n : Nat) :
    ∃ lines done, StreamInv k m o tokenize src sink (streamRun k.isWord k.fmt m o tokenize c src sink n) lines done := by
  induction n with
  | zero =>
    refine ⟨[], [], rfl, by intro i l h; simp at h, ?_, ?_, by simp [streamRun, streamStart], fun _ i hi => by simp [streamRun, streamStart] at hi, ?_⟩
    · simp only [streamRun, streamStart, List.append_nil]
      unfold iterTokens; split <;> rfl
    · simp only [streamRun, streamStart]
      rw [if_neg (by rcases hc with h | h <;> simp [h])]
      exact .running .nil
    · intro e he
      simp only [streamRun, streamStart] at he
      rw [if_neg (by rcases hc with h | h <;> simp [h])] at he
      cases he
  | succ n ih =>
    obtain ⟨lines, done, h⟩ := ih
    exact streamInv_step k m o ho hc tokenize c src sink _ _ _ h

/-! ### C102 -/

/-- **C102.** At every moment, whatever the input is (endless, or failing somewhere) and wherever writing fails, with any cache: what is written are the
chunks of the first tokens of the lines read so far, in order and one each, and the rest of those tokens are the ones waiting; the process ends only
because the input is exhausted or raised, a token cannot be analyzed, or a write raised. -/
theorem c102_situation (k : Conv Rat) (m : Morph Rat) (o : CliOpts Rat) (ho : o.newlines = true) (hc : o.normalForm = true ∨ o.tag = true)
    (tokenize : Bool) (c : CacheArg) (src : Nat → Input) (sink : Nat → Option (PyErr × Nat)) (n : Nat) :
    let s := streamRun k.isWord k.fmt m o tokenize c src sink n
    ∃ lines done, lines.length = s.pos ∧ FirstLines src lines ∧ iterTokens k.isWord m.env tokenize lines = done ++ s.toks ∧
      Situation k m o src sink lines done s.toks s.out s.ended := by
  obtain ⟨lines, done, h⟩ := streamInv_run k m o ho hc tokenize c src sink n
  exact ⟨lines, done, h.read, h.first, h.tokens, h.sit⟩

/-- **C102.** The command does not read ahead: when it asks for a line, the chunks of all tokens of the lines before are written (so it can be used
interactively, and in a pipe). -/
theorem c102_no_read_ahead (k : Conv Rat) (m : Morph Rat) (o : CliOpts Rat) (ho : o.newlines = true) (hc : o.normalForm = true ∨ o.tag = true)
    (tokenize : Bool) (c : CacheArg) (src : Nat → Input) (sink : Nat → Option (PyErr × Nat)) (n : Nat)
    (h : (streamRun k.isWord k.fmt m o tokenize c src sink (n + 1)).pos ≠ (streamRun k.isWord k.fmt m o tokenize c src sink n).pos) :
    ∃ lines, lines.length = (streamRun k.isWord k.fmt m o tokenize c src sink n).pos ∧ FirstLines src lines ∧
      List.Forall₂ (ChunkOf k m o) (iterTokens k.isWord m.env tokenize lines) (streamRun k.isWord k.fmt m o tokenize c src sink n).out := by
  obtain ⟨lines, done, hi⟩ := streamInv_run k m o ho hc tokenize c src sink n
  simp only [streamRun] at h
  generalize streamRun k.isWord k.fmt m o tokenize c src sink n = s at h hi ⊢
  obtain ⟨h1, h2, h3, h4, _, _, _⟩ := hi
  unfold streamStep at h
  split at h
  · exact absurd rfl h
  next hen =>
  rw [hen] at h4
  split at h
  · split at h
    · exact absurd rfl h
    · split at h <;> exact absurd rfl h
  next ht =>
  rw [ht, List.append_nil] at h3
  cases h4 with
  | running hd => exact ⟨lines, h1, h2, h3 ▸ hd⟩

theorem streamRun_add {S : Type} [Score S] (isWord : Char → Bool) (fmt : S → Str) (m : Morph S) (o : CliOpts S) (tokenize : Bool) (c : CacheArg)
    (src : Nat → Input) (sink : Nat → Option (PyErr × Nat)) (n i : Nat) :
    streamRun isWord fmt m o tokenize c src sink (n + i) =
      (streamStep isWord fmt m o tokenize c src sink)^[i] (streamRun isWord fmt m o tokenize c src sink n) := by
  induction i with
  | zero => rfl
  | succ i ih => rw [Function.iterate_succ_apply', ← ih]; rfl

/-- From a line read to its chunks written. -/
theorem stream_tokens (k : Conv Rat) (m : Morph Rat) (o : CliOpts Rat) (ho : o.newlines = true) (tokenize : Bool) (c : CacheArg) (src : Nat → Input)
    (sink : Nat → Option (PyErr × Nat)) (ts cs : List Str) (hts : List.Forall₂ (ChunkOf k m o) ts cs) (s : StreamState) (h1 : s.toks = ts)
    (h2 : s.ended = none) (h3 : ∀ e ∈ s.cache, formatToken k.fmt m o e.1 = .ok e.2) (h4 : ∀ i < s.out.length + cs.length, sink i = none) :
    let s' := (streamStep k.isWord k.fmt m o tokenize c src sink)^[cs.length] s
    s'.toks = [] ∧ s'.ended = none ∧ (∀ e ∈ s'.cache, formatToken k.fmt m o e.1 = .ok e.2) ∧ s'.pos = s.pos ∧ s'.out = s.out ++ cs := by
  induction hts generalizing s with
  | nil => exact ⟨h1, h2, h3, rfl, by simp⟩
  | @cons t ch ts cs hd _ ih =>
    obtain ⟨toks, cache, pos, out, ended⟩ := s
    dsimp only at h1 h2 h3 h4 ⊢
    subst h1 h2
    obtain ⟨hsound, hcache⟩ := cachedCall_sound c (formatToken k.fmt m o) t cache h3
    rw [(chunkOf_iff ho t ch).2 hd] at hsound
    cases hcall : cachedCall c (formatToken k.fmt m o) t cache with
    | mk r cache' =>
    rw [hcall] at hsound hcache
    dsimp only at hsound hcache
    subst hsound
    have hsink : sink out.length = none := h4 _ (by simp)
    have hstep : streamStep k.isWord k.fmt m o tokenize c src sink ⟨t :: ts, cache, pos, out, none⟩ = ⟨ts, cache', pos, out ++ [ch], none⟩ := by
      simp only [streamStep, hcall, hsink]
    rw [List.length_cons, Function.iterate_succ_apply, hstep]
    obtain ⟨i1, i2, i3, i4, i5⟩ := ih ⟨ts, cache', pos, out ++ [ch], none⟩ rfl rfl hcache
      (fun i hi => h4 i (by simp only [List.length_append, List.length_nil, List.length_cons] at hi ⊢; omega))
    exact ⟨i1, i2, i3, i4, by rw [i5]; simp⟩

/-- **C102.** Progress: if the input gives the lines, their tokens can be analyzed and writing does not fail, then after one event for each line and
each token all is read and written, and the process waits for more. -/
theorem c102_progress (k : Conv Rat) (m : Morph Rat) (o : CliOpts Rat) (ho : o.newlines = true) (hc : o.normalForm = true ∨ o.tag = true)
    (tokenize : Bool) (c : CacheArg) (src : Nat → Input) (sink : Nat → Option (PyErr × Nat)) (lines cs : List Str) (hl : FirstLines src lines)
    (hcs : List.Forall₂ (ChunkOf k m o) (iterTokens k.isWord m.env tokenize lines) cs) (hs : ∀ i < cs.length, sink i = none) :
    let s := streamRun k.isWord k.fmt m o tokenize c src sink (lines.length + cs.length)
    s.pos = lines.length ∧ s.toks = [] ∧ s.out = cs ∧ s.ended = none := by
  have key : ∀ (lines cs : List Str), FirstLines src lines → List.Forall₂ (ChunkOf k m o) (iterTokens k.isWord m.env tokenize lines) cs →
      (∀ i < cs.length, sink i = none) →
      let s := streamRun k.isWord k.fmt m o tokenize c src sink (lines.length + cs.length)
      s.pos = lines.length ∧ s.toks = [] ∧ s.out = cs ∧ s.ended = none ∧ ∀ e ∈ s.cache, formatToken k.fmt m o e.1 = .ok e.2 := by
    intro lines
    induction lines using List.reverseRecOn with
    | nil =>
      intro cs _ hcs _
      have h0 : iterTokens k.isWord m.env tokenize [] = [] := by unfold iterTokens; split <;> rfl
      rw [h0] at hcs
      cases hcs
      simp only [List.length_nil, Nat.add_zero, streamRun, streamStart]
      refine ⟨trivial, trivial, trivial, ?_, by simp⟩
      rw [if_neg (by rcases hc with h | h <;> simp [h])]
    | append_singleton lines l ih =>
      intro cs hl hcs hs
      rw [iterTokens_line] at hcs
      have hlast : src lines.length = .line l := hl lines.length l (by simp)
      have hfirst : FirstLines src lines := fun i x hx => hl i x (by
        rw [List.getElem?_append_left (List.getElem?_eq_some_iff.1 hx).1]; exact hx)
      obtain ⟨c1, c2, h1, h2, rfl⟩ : ∃ c1 c2, List.Forall₂ (ChunkOf k m o) (iterTokens k.isWord m.env tokenize lines) c1 ∧
          List.Forall₂ (ChunkOf k m o) (lineTokens k.isWord m.env tokenize l) c2 ∧ cs = c1 ++ c2 := by
        refine ⟨cs.take (iterTokens k.isWord m.env tokenize lines).length, cs.drop (iterTokens k.isWord m.env tokenize lines).length, ?_, ?_, by simp⟩
        · have := List.forall₂_take (iterTokens k.isWord m.env tokenize lines).length hcs
          rwa [List.take_left] at this
        · have := List.forall₂_drop (iterTokens k.isWord m.env tokenize lines).length hcs
          rwa [List.drop_left] at this
      obtain ⟨i1, i2, i3, i4, i5⟩ := ih c1 hfirst h1 fun i hi => hs i (by simp; omega)
      rw [show (lines ++ [l]).length + (c1 ++ c2).length = (lines.length + c1.length) + (1 + c2.length) by simp; omega, streamRun_add]
      generalize streamRun k.isWord k.fmt m o tokenize c src sink (lines.length + c1.length) = s at i1 i2 i3 i4 i5
      obtain ⟨toks, cache, pos, out, ended⟩ := s
      dsimp only at i1 i2 i3 i4 i5
      subst i1 i2 i3 i4
      have hstep : streamStep k.isWord k.fmt m o tokenize c src sink ⟨[], cache, lines.length, out, none⟩ =
          ⟨lineTokens k.isWord m.env tokenize l, cache, lines.length + 1, out, none⟩ := by
        simp only [streamStep, hlast]
      rw [Nat.add_comm 1, Function.iterate_succ_apply, hstep]
      obtain ⟨j1, j2, j3, j4, j5⟩ := stream_tokens k m o ho tokenize c src sink _ c2 h2 ⟨lineTokens k.isWord m.env tokenize l, cache, lines.length + 1, out, none⟩
        rfl rfl i5 (fun i hi => hs i (by simpa using hi))
      exact ⟨by rw [j4]; simp, j1, j5, j2, j3⟩
  obtain ⟨h1, h2, h3, h4, _⟩ := key lines cs hl hcs hs
  exact ⟨h1, h2, h3, h4⟩

/-- What the next event is when all is written. -/
theorem stream_next {S : Type} [Score S] (isWord : Char → Bool) (fmt : S → Str) (m : Morph S) (o : CliOpts S) (tokenize : Bool) (c : CacheArg) (src : Nat → Input)
    (sink : Nat → Option (PyErr × Nat)) (s : StreamState) (h1 : s.toks = []) (h2 : s.ended = none) (r : Option PyErr)
    (h3 : src s.pos = (match r with
      | none => .eof
      | some e => .fails e)) :
    streamStep isWord fmt m o tokenize c src sink s = { s with ended := some r } := by
  obtain ⟨toks, cache, pos, out, ended⟩ := s
  dsimp only at h1 h2 h3
  subst h1 h2
  cases r <;> simp only [streamStep, h3]

/-- **C102.** When the input ends, or fails at some line (say it is not UTF-8), the chunks of all tokens of the lines before are written. -/
theorem c102_end_of_input (k : Conv Rat) (m : Morph Rat) (o : CliOpts Rat) (ho : o.newlines = true) (hc : o.normalForm = true ∨ o.tag = true)
    (tokenize : Bool) (c : CacheArg) (src : Nat → Input) (sink : Nat → Option (PyErr × Nat)) (lines cs : List Str) (hl : FirstLines src lines)
    (hcs : List.Forall₂ (ChunkOf k m o) (iterTokens k.isWord m.env tokenize lines) cs) (hs : ∀ i < cs.length, sink i = none) :
    (src lines.length = .eof → ∀ n > lines.length + cs.length,
      (streamRun k.isWord k.fmt m o tokenize c src sink n).out = cs ∧ (streamRun k.isWord k.fmt m o tokenize c src sink n).ended = some none) ∧
    (∀ e, src lines.length = .fails e → ∀ n > lines.length + cs.length,
      (streamRun k.isWord k.fmt m o tokenize c src sink n).out = cs ∧ (streamRun k.isWord k.fmt m o tokenize c src sink n).ended = some (some e)) := by
  obtain ⟨h1, h2, h3, h4⟩ := c102_progress k m o ho hc tokenize c src sink lines cs hl hcs hs
  have stays : ∀ (s : StreamState) (i : Nat), s.ended ≠ none → (streamStep k.isWord k.fmt m o tokenize c src sink)^[i] s = s := by
    intro s i hne
    induction i with
    | zero => rfl
    | succ i ih =>
      rw [Function.iterate_succ_apply', ih]
      unfold streamStep
      split
      · rfl
      · next h => exact absurd h hne
  have key : ∀ r, src lines.length = (match r with
      | none => .eof
      | some e => .fails e) → ∀ n > lines.length + cs.length,
      (streamRun k.isWord k.fmt m o tokenize c src sink n).out = cs ∧ (streamRun k.isWord k.fmt m o tokenize c src sink n).ended = some r := by
    intro r hr n hn
    obtain ⟨i, rfl⟩ : ∃ i, n = (lines.length + cs.length) + (i + 1) := ⟨n - (lines.length + cs.length) - 1, by omega⟩
    rw [streamRun_add, Function.iterate_succ_apply,
      stream_next k.isWord k.fmt m o tokenize c src sink _ h2 h4 r (by rw [h1]; exact hr), stays _ _ (by simp)]
    exact ⟨h3, rfl⟩
  exact ⟨key none, fun e => key (some e)⟩

/-- **C102.** An endless input is analyzed endlessly: every line comes to be read and its chunks written. -/
theorem c102_endless (k : Conv Rat) (m : Morph Rat) (o : CliOpts Rat) (ho : o.newlines = true) (hc : o.normalForm = true ∨ o.tag = true)
    (tokenize : Bool) (c : CacheArg) (line : Nat → Str) (hok : ∀ i, ∀ t ∈ iterTokens k.isWord m.env tokenize [line i], ∃ ch, ChunkOf k m o t ch) (i : Nat) :
    ∃ n, let s := streamRun k.isWord k.fmt m o tokenize c (fun i => .line (line i)) (fun _ => none) n
      s.ended = none ∧ s.pos = i ∧ List.Forall₂ (ChunkOf k m o) (iterTokens k.isWord m.env tokenize ((List.range i).map line)) s.out := by
  have hex : ∃ cs, List.Forall₂ (ChunkOf k m o) (iterTokens k.isWord m.env tokenize ((List.range i).map line)) cs := by
    induction i with
    | zero => exact ⟨[], by unfold iterTokens; split <;> exact .nil⟩
    | succ i ih =>
      obtain ⟨cs, hcs⟩ := ih
      have h1 := hok i
      rw [show [line i] = [] ++ [line i] from rfl, iterTokens_line, show iterTokens k.isWord m.env tokenize [] = [] by unfold iterTokens; split <;> rfl,
        List.nil_append] at h1
      rw [List.range_succ, List.map_append, List.map_cons, List.map_nil, iterTokens_line]
      generalize lineTokens k.isWord m.env tokenize (line i) = ts at h1
      have : ∃ ds, List.Forall₂ (ChunkOf k m o) ts ds := by
        induction ts with
        | nil => exact ⟨[], .nil⟩
        | cons t ts ih =>
          obtain ⟨d, hd⟩ := h1 t (by simp)
          obtain ⟨ds, hds⟩ := ih fun t ht => h1 t (by simp [ht])
          exact ⟨d :: ds, .cons hd hds⟩
      obtain ⟨ds, hds⟩ := this
      exact ⟨cs ++ ds, List.rel_append hcs hds⟩
  obtain ⟨cs, hcs⟩ := hex
  have hl : FirstLines (fun i => .line (line i)) ((List.range i).map line) := by
    intro j l hj
    simp only [List.getElem?_map, Option.map_eq_some_iff] at hj
    obtain ⟨a, ha, rfl⟩ := hj
    have := (List.getElem?_eq_some_iff.1 ha)
    obtain ⟨h1, h2⟩ := this
    simp at h2; subst h2; rfl
  obtain ⟨h1, h2, h3, h4⟩ := c102_progress k m o ho hc tokenize c (fun i => .line (line i)) (fun _ => none) _ cs hl hcs (fun _ _ => rfl)
  exact ⟨_, h4, by rw [h1]; simp, by rw [h3]; exact hcs⟩

theorem streamStep_out {S : Type} [Score S] (isWord : Char → Bool) (fmt : S → Str) (m : Morph S) (o : CliOpts S) (tokenize : Bool) (c : CacheArg) (src : Nat → Input)
    (sink : Nat → Option (PyErr × Nat)) (s : StreamState) : s.out <+: (streamStep isWord fmt m o tokenize c src sink s).out := by
  unfold streamStep
  split
  · exact List.prefix_rfl
  split
  · split
    · exact List.prefix_rfl
    · split <;> exact List.prefix_append _ _
  · split <;> exact List.prefix_rfl

/-- **C102.** Wherever writing fails, the text written is the beginning of what would have been written; nothing is out of order or lost in between. -/
theorem c102_failed_output {S : Type} [Score S] (isWord : Char → Bool) (fmt : S → Str) (m : Morph S) (o : CliOpts S) (tokenize : Bool) (c : CacheArg)
    (src : Nat → Input) (sink : Nat → Option (PyErr × Nat)) (n : Nat) :
    (streamRun isWord fmt m o tokenize c src sink n).out.flatten <+: (streamRun isWord fmt m o tokenize c src (fun _ => none) n).out.flatten := by
  have key : streamRun isWord fmt m o tokenize c src sink n = streamRun isWord fmt m o tokenize c src (fun _ => none) n ∨
      ((streamRun isWord fmt m o tokenize c src sink n).ended ≠ none ∧
        (streamRun isWord fmt m o tokenize c src sink n).out.flatten <+: (streamRun isWord fmt m o tokenize c src (fun _ => none) n).out.flatten) := by
    induction n with
    | zero => exact .inl rfl
    | succ n ih =>
      rcases ih with ih | ⟨h1, h2⟩
      · simp only [streamRun]
        rw [ih]
        generalize streamRun isWord fmt m o tokenize c src (fun _ => none) n = s
        obtain ⟨toks, cache, pos, out, ended⟩ := s
        cases ended with
        | some r => exact .inl rfl
        | none =>
        cases toks with
        | nil => exact .inl rfl
        | cons t ts =>
          simp only [streamStep]
          cases hcall : cachedCall c (formatToken fmt m o) t cache with
          | mk r cache' =>
          cases r with
          | error e => exact .inl rfl
          | ok chunk =>
            simp only
            cases hs : sink out.length with
            | none => exact .inl rfl
            | some ej =>
              refine .inr ⟨by simp, ?_⟩
              simp only [List.flatten_append, List.flatten_cons, List.flatten_nil, List.append_nil]
              exact (List.prefix_append_right_inj _).2 (List.take_prefix _ _)
      · refine .inr ?_
        simp only [streamRun]
        generalize streamRun isWord fmt m o tokenize c src sink n = s at h1 h2
        have hstay : streamStep isWord fmt m o tokenize c src sink s = s := by
          unfold streamStep
          split
          · rfl
          · next h => exact absurd h h1
        rw [hstay]
        refine ⟨h1, h2.trans ?_⟩
        obtain ⟨u, hu⟩ := streamStep_out isWord fmt m o tokenize c src (fun _ => none) (streamRun isWord fmt m o tokenize c src (fun _ => none) n)
        rw [← hu, List.flatten_append]
        exact List.prefix_append _ _
  rcases key with h | ⟨_, h⟩
  · rw [h]
  · exact h

/-- While the process runs, each event was a line read or a chunk written. -/
theorem stream_count {S : Type} [Score S] (isWord : Char → Bool) (fmt : S → Str) (m : Morph S) (o : CliOpts S) (tokenize : Bool) (c : CacheArg) (src : Nat → Input)
    (sink : Nat → Option (PyErr × Nat)) (n : Nat) (h : (streamRun isWord fmt m o tokenize c src sink n).ended = none) :
    (streamRun isWord fmt m o tokenize c src sink n).pos + (streamRun isWord fmt m o tokenize c src sink n).out.length = n := by
  induction n with
  | zero => rfl
  | succ n ih =>
    simp only [streamRun] at h ⊢
    generalize streamRun isWord fmt m o tokenize c src sink n = s at h ih
    obtain ⟨toks, cache, pos, out, ended⟩ := s
    cases ended with
    | some r => simp [streamStep] at h
    | none =>
    have ih := ih rfl
    dsimp only at ih
    cases toks with
    | nil =>
      simp only [streamStep] at h ⊢
      cases hs : src pos <;> simp only [hs] at h ⊢
      · omega
      · cases h
      · cases h
    | cons t ts =>
      simp only [streamStep] at h ⊢
      cases hcall : cachedCall c (formatToken fmt m o) t cache with
      | mk r cache' =>
      rw [hcall] at h
      cases r with
      | error e => simp at h
      | ok chunk =>
        simp only at h ⊢
        cases hs : sink out.length with
        | none => simp only [List.length_append, List.length_singleton]; omega
        | some ej => simp [hs] at h

/-- The input that has these lines. -/
def Input.ofLines (lines : List Str) (i : Nat) : Input := match lines[i]? with
  | some l => .line l
  | none => .eof

/-- **C102.** The process ends on every finite input, and then it has written what `Model/Cli` says of the whole input (C58, C68), with the same
exception if it failed. -/
theorem c102_batch (k : Conv Rat) (m : Morph Rat) (o : CliOpts Rat) (ho : o.newlines = true) (hc : o.normalForm = true ∨ o.tag = true)
    (tokenize : Bool) (c : CacheArg) (lines : List Str) (n : Nat) (hn : lines.length + (iterTokens k.isWord m.env tokenize lines).length < n) :
    let s := streamRun k.isWord k.fmt m o tokenize c (Input.ofLines lines) (fun _ => none) n
    ∃ r, s.ended = some r ∧ cliParse k.isWord k.fmt m o tokenize c lines = (s.out, r) := by
  dsimp only
  obtain ⟨ls, done, h1, h2, h3, h4, h5, h6, h7⟩ := streamInv_run k m o ho hc tokenize c (Input.ofLines lines) (fun _ => none) n
  have hcount := stream_count k.isWord k.fmt m o tokenize c (Input.ofLines lines) (fun _ => none) n
  generalize streamRun k.isWord k.fmt m o tokenize c (Input.ofLines lines) (fun _ => none) n = s at h1 h3 h4 h5 h6 h7 hcount
  obtain ⟨toks, cache, pos, out, ended⟩ := s
  dsimp only at h1 h3 h4 h5 h6 h7 hcount ⊢
  -- the lines read are the first ones
  have hpre : ls <+: lines := by
    have : ∀ (i : Nat) (l : Str), ls[i]? = some l → lines[i]? = some l := by
      intro i l hl
      have := h2 i l hl
      unfold Input.ofLines at this
      split at this
      · next l' hl' => cases this; exact hl'
      · cases this
    refine List.prefix_iff_getElem?.2 fun i hi => ?_
    exact this i _ (List.getElem?_eq_getElem hi)
  obtain ⟨more, rfl⟩ := hpre
  have htok : iterTokens k.isWord m.env tokenize (ls ++ more) = done ++ (toks ++ iterTokens k.isWord m.env tokenize more) := by
    rw [← List.append_assoc, ← h3]
    unfold iterTokens
    split <;> simp
  have hnof : ∀ e i, Input.ofLines (ls ++ more) i ≠ .fails e := by
    intro e i h
    unfold Input.ofLines at h
    split at h <;> cases h
  have hmap : ∀ {ts cs : List Str}, List.Forall₂ (ChunkOf k m o) ts cs → List.Forall₂ (fun tok chunk => formatToken k.fmt m o tok = .ok chunk) ts cs :=
    fun h => h.imp fun t ch => (chunkOf_iff ho t ch).2
  have hchunks := c58_chunks k.isWord k.fmt m o tokenize c (ls ++ more) hc out
  cases h4 with
  | running hd =>
    have := hcount rfl
    have hl := hd.length_eq
    rw [htok] at hn
    simp only [List.length_append] at hn
    omega
  | finished hd hr he =>
    refine ⟨none, rfl, hchunks.1.2 ?_⟩
    have : more = [] := by
      unfold Input.ofLines at he
      split at he
      · cases he
      · next h => simpa using h
    rw [htok, this, hr]
    have h0 : iterTokens k.isWord m.env tokenize [] = [] := by unfold iterTokens; split <;> rfl
    rw [h0, List.append_nil, List.append_nil]
    exact hmap hd
  | input e hd hr he => exact absurd he (hnof e _)
  | token e t ts hd hr _ _ =>
    refine ⟨some e, rfl, (hchunks.2 e).2 ⟨done, t, ts ++ iterTokens k.isWord m.env tokenize more, ?_, hmap hd, ?_⟩⟩
    · rw [htok, hr]; rfl
    · rcases h7 e rfl with ⟨i, hi⟩ | ⟨i, hi⟩ | ⟨t', ts', ht, hf⟩
      · exact absurd hi (hnof e i)
      · exact absurd rfl hi
      · rw [hr] at ht; cases ht; exact hf
  | output e t ts before chunk j hd hr hch hsk ho => cases hsk

/-! ### Concrete runs -/

/-- An input that repeats two lines for ever. -/
def Demo.endless (i : Nat) : Input := .line (if i % 2 = 0 then c!"кошка, кошка\n" else c!"\n")

def Demo.streamOpts : CliOpts Rat := ⟨false, true, false, true, 0⟩

/-- The hypotheses hold of it: its tokens can be analyzed; after six events three lines are read and three tokens are written. -/
example : Demo.streamOpts.newlines = true ∧ (Demo.streamOpts.normalForm = true ∨ Demo.streamOpts.tag = true) ∧
    (let s := streamRun Demo.conv.isWord Demo.conv.fmt Demo.morph Demo.streamOpts true .unlim Demo.endless (fun _ => none) 6
    (s.pos, s.out, s.toks) = (3, [c!"кошка{кошка}\n", c!",{,}\n", c!"кошка{кошка}\n"], [c!"кошка", c!",", c!"кошка"])) := by
  refine ⟨rfl, .inl rfl, by decide +kernel⟩

/-- The hypothesis of `c102_endless` holds of it. -/
example : ∀ i, ∀ t ∈ iterTokens Demo.conv.isWord Demo.morph.env true [if i % 2 = 0 then c!"кошка, кошка\n" else c!"\n"],
    ∃ ch, ChunkOf Demo.conv Demo.morph Demo.streamOpts t ch := by
  have key : ∀ l ∈ [c!"кошка, кошка\n", c!"\n"], ∀ t ∈ iterTokens Demo.conv.isWord Demo.morph.env true [l],
      (formatToken Demo.conv.fmt Demo.morph Demo.streamOpts t).toOption.isSome = true := by decide +kernel
  intro i t ht
  have := key _ (by split <;> simp) t ht
  cases h : formatToken Demo.conv.fmt Demo.morph Demo.streamOpts t with
  | error e => rw [h] at this; cases this
  | ok ch => exact ⟨ch, (chunkOf_iff rfl t ch).1 h⟩

/-- A pipe that closes in the middle of the second chunk. -/
example : (let s := streamRun Demo.conv.isWord Demo.conv.fmt Demo.morph Demo.streamOpts true .unlim Demo.endless (fun i => if i = 1 then some (.ioError, 2) else none) 100
    (s.pos, s.out, s.ended)) = (1, [c!"кошка{кошка}\n", c!",{"], some (some .ioError)) := by decide +kernel

end Verif
