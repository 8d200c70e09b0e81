/-
C37: the format check.  C38: updating the metadata.
-/
import Verif.Model.Storage
import Verif.Lemmas.Bind
import Verif.Lemmas.PyDict

namespace Verif

/-! ### C37 -/

/-- The version a dictionary declares; `0.0` if it declares none. -/
def versionOf (m : List (Str × Json)) : Json := (dictGet (c!"format_version") m).getD (.str (c!"0.0"))

theorem assertFormat_cases (m : List (Str × Json)) : assertFormat m = .ok () ∨ assertFormat m = .error .valueError := by
  unfold assertFormat
  repeat' split
  all_goals simp

/-- **C37.** A dictionary is accepted iff its version is `2.` and something without a dot. -/
theorem c37_accepted_iff (m : List (Str × Json)) :
    assertFormat m = .ok () ↔ ∃ minor, '.' ∉ minor ∧ versionOf m = .str (c!"2." ++ minor) := by
  have h2 : (splitC '.' CURRENT_FORMAT_VERSION).headD [] = ['2'] := by decide +kernel
  unfold assertFormat
  change (match versionOf m with
    | .str v => if '.' ∉ v then Except.error PyErr.valueError
      else match splitC '.' v with
        | [major, _] => if major = (splitC '.' CURRENT_FORMAT_VERSION).headD [] then .ok () else .error .valueError
        | _ => .error .valueError
    | _ => .error .valueError) = _ ↔ _
  rw [h2]
  constructor
  · intro h
    split at h
    next v hv =>
      split at h
      · cases h
      split at h
      next major minor hs =>
        split at h
        next hm =>
          subst hm
          refine ⟨minor, not_mem_of_mem_splitC '.' v _ (by rw [hs]; simp), ?_⟩
          rw [hv]
          have := joinC_splitC '.' v
          rw [hs] at this
          rw [← this]
          rfl
        · cases h
      · cases h
    · cases h
  · rintro ⟨minor, hm, hv⟩
    rw [hv]
    have hs : splitC '.' (c!"2." ++ minor) = [['2'], minor] := by
      have := splitC_append '.' ['2'] minor (by decide)
      rw [splitC_of_not_mem '.' minor hm] at this
      exact this
    have hd : ¬ '.' ∉ (c!"2." ++ minor) := by
      intro h; exact h (List.mem_append_left _ (by decide))
    simp only [hs, if_neg hd, if_true]

/-- **C37.** Every other version is rejected with `ValueError`, before anything but the metadata is read. -/
theorem c37_rejected (little : Bool) (d : Disk) (cls : TagCls) (m : List (Str × Json)) (hm : loadMeta d = .ok m)
    (h : ¬ ∃ minor, '.' ∉ minor ∧ versionOf m = .str (c!"2." ++ minor)) :
    assertFormat m = .error .valueError ∧ loadDict little d cls = .error .valueError := by
  have h1 : assertFormat m = .error .valueError := by
    rcases assertFormat_cases m with h1 | h1
    · exact absurd ((c37_accepted_iff m).1 h1) h
    · exact h1
  refine ⟨h1, ?_⟩
  unfold loadDict
  rw [hm, ok_bind, h1]
  rfl

/-- Examples: the current version, an old one, a newer major version, a bare number and a patch version. -/
example : assertFormat [(c!"format_version", .str (c!"2.4"))] = .ok () ∧ assertFormat [(c!"format_version", .str (c!"2."))] = .ok () ∧
    assertFormat [(c!"format_version", .str (c!"3.0"))] = .error .valueError ∧
    assertFormat [(c!"format_version", .num 2)] = .error .valueError ∧
    assertFormat [(c!"format_version", .str (c!"2.4.1"))] = .error .valueError ∧ assertFormat [] = .error .valueError := by
  decide +kernel

/-! ### C38 -/

/-- Specification: the last value given to a key. -/
def lastValue (k : Str) (l : List (Str × Json)) : Option Json := (l.reverse.find? fun e => e.1 = k).map Prod.snd

/-- Specification: the elements of a list in the order in which they occur first. -/
def firstOccs (l : List Str) : List Str := l.foldl (fun acc x => if x ∈ acc then acc else acc ++ [x]) []

theorem updates_get (extra : List (Str × Json)) (k : Str) : ∀ m : List (Str × Json),
    dictGet k (extra.foldl (fun d e => dictSet e.1 e.2 d) m) = (lastValue k extra).or (dictGet k m) := by
  induction extra with
  | nil => intro m; rfl
  | cons e extra ih =>
    intro m
    rw [List.foldl_cons, ih, dictGet_dictSet]
    unfold lastValue
    rw [List.reverse_cons, List.find?_append]
    cases h : extra.reverse.find? fun e => e.1 = k with
    | some x => rfl
    | none =>
      by_cases hk : k = e.1
      · subst hk
        simp
      · have hk' : ¬ e.1 = k := fun h => hk h.symm
        simp [hk, hk']

theorem updates_keys (extra : List (Str × Json)) : ∀ m : List (Str × Json),
    (extra.foldl (fun d e => dictSet e.1 e.2 d) m).map Prod.fst =
      (extra.map Prod.fst).foldl (fun acc x => if x ∈ acc then acc else acc ++ [x]) (m.map Prod.fst) := by
  induction extra with
  | nil => intro m; rfl
  | cons e extra ih =>
    intro m
    rw [List.foldl_cons, ih, List.map_cons, List.foldl_cons]
    congr 1
    split
    next h => rw [keys_dictSet_mem _ _ _ h]
    next h => rw [keys_dictSet_not_mem _ _ _ h]; simp

theorem firstOccs_nodup (l : List Str) (h : l.Nodup) : firstOccs l = l := by
  unfold firstOccs
  have : ∀ (l acc : List Str), (acc ++ l).Nodup → l.foldl (fun acc x => if x ∈ acc then acc else acc ++ [x]) acc = acc ++ l := by
    intro l
    induction l with
    | nil => intro acc _; simp
    | cons a l ih =>
      intro acc hn
      have ha : a ∉ acc := by
        intro hm
        exact (List.nodup_append.1 hn).2.2 a hm a (by simp) rfl
      rw [List.foldl_cons, if_neg ha, ih _ (by simpa using hn)]
      simp
  simpa using this l [] (by simpa using h)

theorem updates_nodup (extra : List (Str × Json)) : ∀ m : List (Str × Json), (m.map Prod.fst).Nodup →
    ((extra.foldl (fun d e => dictSet e.1 e.2 d) m).map Prod.fst).Nodup := by
  induction extra with
  | nil => intro m h; exact h
  | cons e extra ih => intro m h; rw [List.foldl_cons]; exact ih _ (keys_dictSet_nodup _ _ _ h)

theorem toDictOrdered_of_nodup (l : List (Str × Json)) (h : (l.map Prod.fst).Nodup) : toDictOrdered l = l := by
  unfold toDictOrdered
  have : ∀ (l acc : List (Str × Json)), ((acc ++ l).map Prod.fst).Nodup → l.foldl (fun d e => dictSet e.1 e.2 d) acc = acc ++ l := by
    intro l
    induction l with
    | nil => intro acc _; simp
    | cons a l ih =>
      intro acc hn
      have ha : a.1 ∉ acc.map Prod.fst := by
        intro hm
        rw [List.map_append] at hn
        exact (List.nodup_append.1 hn).2.2 a.1 hm a.1 (by simp) rfl
      rw [List.foldl_cons, keys_dictSet_not_mem _ _ _ ha, ih _ (by simpa using hn)]
      simp
  simpa using this l [] (by simpa using h)

theorem mapE_metaItem (l : List (Str × Json)) : mapE metaItem (l.map fun e => .arr [.str e.1, e.2]) = .ok l := by
  induction l with
  | nil => rfl
  | cons e l ih => simp only [List.map_cons, mapE, metaItem, ok_bind, ih]; rfl

/-- What `load_meta` returns is a dictionary: no key occurs twice. -/
theorem loadMeta_nodup (d : Disk) (m : List (Str × Json)) (h : loadMeta d = .ok m) : (m.map Prod.fst).Nodup := by
  unfold loadMeta at h
  obtain ⟨j, _, h⟩ := (bind_ok_iff _ _ _).1 h
  split at h
  · obtain ⟨items, _, h⟩ := (bind_ok_iff _ _ _).1 h
    cases h
    exact updates_nodup _ _ (by simp)
  · cases h
    exact updates_nodup _ _ (by simp)
  · cases h

/-- Writing metadata and loading it. -/
theorem loadMeta_written (d : Disk) (m : List (Str × Json)) (h : (m.map Prod.fst).Nodup) : loadMeta (d.set .metaF (metaFile m)) = .ok m := by
  unfold loadMeta readJson
  simp only [Disk.set, if_true, metaFile, ok_bind, mapE_metaItem]
  rw [toDictOrdered_of_nodup m h]
  rfl

/-- **C38.** After `update_meta` the metadata has the given values for the given keys, the old ones for the others; the old keys keep their
order and the new ones follow in the order given; nothing else in the folder changes; and updating never fails if loading does not. -/
theorem c38_update (d : Disk) (extra m : List (Str × Json)) (hm : loadMeta d = .ok m) :
    ∃ ops m', updateMeta d extra = .ok ops ∧ loadMeta (d.writeAll ops) = .ok m' ∧
      (∀ k, dictGet k m' = (lastValue k extra).or (dictGet k m)) ∧
      m'.map Prod.fst = firstOccs (m.map Prod.fst ++ extra.map Prod.fst) ∧
      ∀ n, n ≠ .metaF → d.writeAll ops n = d n := by
  have hn := loadMeta_nodup d m hm
  generalize hM : extra.foldl (fun d e => dictSet e.1 e.2 d) m = M
  refine ⟨[(.metaF, metaFile M)], M, by unfold updateMeta; rw [hm, ← hM]; rfl, loadMeta_written d M (hM ▸ updates_nodup _ _ hn),
    fun k => hM ▸ updates_get extra k m, ?_, ?_⟩
  · rw [← hM, updates_keys]
    conv_rhs => rw [firstOccs, List.foldl_append]
    congr 1
    exact (firstOccs_nodup _ hn).symm
  · intro n hne
    simp [Disk.writeAll, Disk.set, hne]

/-- **C38 (defect).** `update_meta` is not atomic: whenever it is killed, either nothing has changed or the metadata cannot be read any more,
and with it the dictionary. -/
theorem c38_killed (little : Bool) (cls : TagCls) (d d' : Disk) (extra m : List (Str × Json)) (ops : List (FName × File)) (hm : loadMeta d = .ok m)
    (hu : updateMeta d extra = .ok ops) (hk : Killed d ops d') :
    d' = d ∨ (loadMeta d' = .error .valueError ∧ loadDict little d' cls = .error .valueError) := by
  unfold updateMeta at hu
  rw [hm] at hu
  cases hu
  cases hk with
  | before => exact .inl rfl
  | inside _ _ _ f h =>
    right
    cases h
    have : loadMeta (d.set .metaF .broken) = .error .valueError := by
      unfold loadMeta readJson
      simp only [Disk.set, if_true]
      rfl
    refine ⟨this, ?_⟩
    unfold loadDict
    rw [this]
    rfl
  | later _ _ _ _ h => cases h

/-- The hypotheses hold: probabilities added to a dictionary, the language overwritten. -/
example : ∃ ops m', updateMeta (Disk.fresh.set .metaF (metaFile [(c!"language_code", .str (c!"ru")), (c!"source", .null)]))
      [(c!"P(t|w)", .bool true), (c!"language_code", .str (c!"uk"))] = .ok ops ∧
    loadMeta (Disk.fresh.writeAll ops) = .ok m' ∧ m'.map Prod.fst = [c!"language_code", c!"source", c!"P(t|w)"] :=
  ⟨_, _, rfl, rfl, by decide +kernel⟩

end Verif
