/-
An executable check of `Dict.WF`, used to exhibit concrete sound dictionaries.
-/
import Verif.Lemmas.Bind
import Verif.Spec.Default
import Verif.Demo

namespace Verif

/-- The form `(para, idx)` if the tables resolve it. -/
def Dict.form? (d : Dict) (para idx : Nat) : Option (List Nat × Str × Tag × Str) :=
  match d.paradigms[para]? with
  | none => none
  | some p =>
    if idx < p.length / 3 then
      match d.formPrefix p idx, d.formSuffix p idx, d.tagInfo para idx with
      | .ok pre, .ok suf, .ok tag => some (p, pre, tag, suf)
      | _, _, _ => none
    else none

theorem Dict.form?_some {d : Dict} {para idx : Nat} {p : List Nat} {pre suf : Str} {tag : Tag}
    (h : d.form? para idx = some (p, pre, tag, suf)) : d.IsForm para idx p pre tag suf := by
  unfold Dict.form? at h
  split at h
  · simp at h
  · next q hq =>
    split at h
    · next hi =>
      split at h
      · next h1 h2 h3 =>
        simp only [Option.some.injEq, Prod.mk.injEq] at h
        obtain ⟨rfl, rfl, rfl, rfl⟩ := h
        exact ⟨hq, hi, h1, h2, h3⟩
      · simp at h
    · simp at h

def Dict.check (d : Dict) : Bool :=
  (List.range d.paradigms.length).all (fun para =>
    (List.range ((d.paradigms.getD para []).length / 3)).all fun idx => (d.form? para idx).isSome) &&
  d.words.all (fun e => match d.form? e.2.1 e.2.2 with
    | some (_, pre, _, suf) => decide (e.1 = pre ++ (e.1.drop pre.length).take (e.1.length - pre.length - suf.length) ++ suf)
    | none => false) &&
  decide (d.pred.length = d.prefixes.length) &&
  (d.pred.zip d.prefixes).all (fun tp => tp.1.all fun e => decide (1 ≤ e.2.1) &&
    match d.form? e.2.2.1 e.2.2.2 with
    | some (_, pre, _, suf) => decide (tp.2 = pre) && endsWith e.1 suf
    | none => false)

theorem Dict.check_wf (d : Dict) (h : d.check = true) : d.WF := by
  simp only [Dict.check, Bool.and_eq_true, List.all_eq_true, List.mem_range, decide_eq_true_eq] at h
  obtain ⟨⟨⟨h1, h2⟩, h3⟩, h4⟩ := h
  refine ⟨?_, ?_, h3, ?_⟩
  · intro para p hp idx hidx
    obtain ⟨hl, he⟩ := List.getElem?_eq_some_iff.1 hp
    have := h1 para hl idx (by rw [List.getD_eq_getElem?_getD, hp]; exact hidx)
    obtain ⟨⟨q, pre, tag, suf⟩, hf⟩ := Option.isSome_iff_exists.1 this
    have hf := Dict.form?_some hf
    have : p = q := by have := hf.hpara; rw [hp] at this; simpa using this
    exact ⟨pre, tag, suf, this ▸ hf⟩
  · intro e he
    have := h2 e he
    split at this
    · next pre tag suf hf =>
      exact ⟨_, _, _, _, _, Dict.form?_some hf, by simpa using this⟩
    · simp at this
  · intro i t ht e he
    obtain ⟨hi, rfl⟩ := List.getElem?_eq_some_iff.1 ht
    have hi' : i < d.prefixes.length := h3 ▸ hi
    have hz : (d.pred[i], d.prefixes[i]) ∈ d.pred.zip d.prefixes := by
      rw [List.mem_iff_getElem]
      exact ⟨i, by simp [hi, hi'], by simp⟩
    have := h4 _ hz e he
    obtain ⟨hc, this⟩ := this
    refine ⟨hc, ?_⟩
    split at this
    · next pre tag suf hf =>
      simp only [Bool.and_eq_true, decide_eq_true_eq, endsWith_iff] at this
      refine ⟨_, pre, tag, suf, Dict.form?_some hf, ?_, this.2⟩
      rw [← this.1]; simp
    · simp at this

theorem Demo.dict_wf : Demo.dict.WF := Dict.check_wf _ (by decide +kernel)

theorem Demo.bound_ok : initUnits (ruUnits (S := Rat)) Demo.cls = .ok Demo.bound := by
  have h : (initUnits (ruUnits (S := Rat)) Demo.cls).isOk = true := by decide +kernel
  unfold Demo.bound
  cases h' : initUnits (ruUnits (S := Rat)) Demo.cls with
  | error e => rw [h'] at h; simp [Except.isOk, Except.toBool] at h
  | ok r => rfl

theorem Demo.morph_isRu : IsRu Demo.morph := by
  refine ⟨Demo.cls, ?_⟩
  unfold mkMorph
  show (initUnits (ruUnits (S := Rat)) Demo.cls >>= fun r =>
    pure (⟨Demo.morph.env, Demo.morph.dict, r.1, Demo.morph.sub, r.2, Demo.morph.est⟩ : Morph Rat)) = _
  rw [Demo.bound_ok]; rfl

theorem Demo.morphP_isRu : IsRu Demo.morphP := by
  refine ⟨Demo.cls, ?_⟩
  unfold mkMorph
  show (initUnits (ruUnits (S := Rat)) Demo.cls >>= fun r =>
    pure (⟨Demo.morphP.env, Demo.morphP.dict, r.1, Demo.morphP.sub, r.2, Demo.morphP.est⟩ : Morph Rat)) = _
  rw [Demo.bound_ok]; rfl

end Verif
