/-
C92: the JSON files of a dictionary, down to the bytes: what is written is read back, and a file that was cut at any byte is refused.
-/
import Verif.Lemmas.JsonText
import Verif.Props.C56

namespace Verif

/-! ### One file -/

/-- Every value without floats and with different keys in its dicts is read back from the bytes `json_write` puts into the file. -/
theorem c92_round_trip (j : Json) (h : j.Plain) : jsonRead (jsonWrite j) = .ok j := by
  unfold jsonRead jsonWrite
  rw [decode_utf8]
  exact loads_text h

/-- So two values never leave the same bytes. -/
theorem c92_injective (j k : Json) (hj : j.Plain) (hk : k.Plain) (h : jsonWrite j = jsonWrite k) : j = k := by
  have h1 := c92_round_trip j hj
  rw [h, c92_round_trip k hk] at h1
  exact (Except.ok.inj h1).symm

/-- A file into which a list or a dict was being written is refused with `ValueError` at every length but the full one: after any number of bytes, inside a
character, a string, a number, or after a closing bracket of an inner list. -/
theorem c92_cut (j : Json) (h : j.Plain) (hc : j.Container) (n : Nat) (hn : n < (jsonWrite j).length) :
    jsonRead ((jsonWrite j).take n) = .error .valueError := by
  have hne : (jsonWrite j).take n ≠ jsonWrite j := by
    intro e
    have := congrArg List.length e
    rw [List.length_take] at this
    omega
  obtain ⟨p, t, hp, hs, ht⟩ := decode_cut (j.text 0) _ (List.take_prefix n (jsonWrite j)) hne
  unfold jsonRead
  rw [hp]
  refine loads_cut h ?_ hs ht
  cases j with
  | arr l => exact .inl ⟨l, rfl⟩
  | obj l => exact .inr ⟨l, rfl⟩
  | null => cases hc
  | bool b => cases hc
  | num n => cases hc
  | str s => cases hc

/-- Any file is read or refused with `ValueError`; nothing else is raised. -/
theorem c92_value_error (b : List Nat) : (∃ j, jsonRead b = .ok j) ∨ jsonRead b = .error .valueError := by
  unfold jsonRead jsonLoads
  split
  · exact .inr rfl
  · split
    · exact .inr rfl
    · split
      · exact .inl ⟨_, rfl⟩
      · exact .inr rfl

/-- The bound on the depth of the calls in the model of the reader is never met: more of it changes nothing. -/
theorem c92_fuel (s : Str) (n : Nat) (hn : 2 * s.length + 2 ≤ n) : scanVal n s = scanVal (2 * s.length + 2) s :=
  (scan_fuel _ s rfl).1 _ _ (by omega) (by omega)

namespace Demo

/-- Strings with quotes, a line break, a control character, Cyrillic letters and a character outside the basic plane; nesting; a negative number. -/
def j92 : Json := .obj [(c!"a\"b", .arr [.str [Char.ofNat 10, Char.ofNat 1, '\\'], .num (-907), .arr []]), (c!"кошка", .obj [(c!"", .str [Char.ofNat 0x1F600])]),
  (c!"x", .null)]

theorem j92_plain : j92.Plain := by
  refine .obj _ (by decide) ?_
  simp only [List.mem_cons, List.not_mem_nil, or_false, forall_eq_or_imp, forall_eq]
  refine ⟨.arr _ ?_, .obj _ (by decide) ?_, .null⟩
  · simp only [List.mem_cons, List.not_mem_nil, or_false, forall_eq_or_imp, forall_eq]
    exact ⟨.str _, .num _, .arr _ (by simp)⟩
  · simp only [List.mem_cons, List.not_mem_nil, or_false, forall_eq]
    exact .str _

end Demo

example : (jsonWrite Demo.j92).length = 105 ∧ Demo.j92.Plain ∧ Demo.j92.Container := ⟨by decide +kernel, Demo.j92_plain, trivial⟩

/-- The bytes are those Python writes. -/
example : jsonWrite (.arr [.str (c!"ж\""), .num 10]) = [91, 10, 32, 32, 34, 208, 182, 92, 34, 34, 44, 10, 32, 32, 49, 48, 10, 93] := by decide +kernel

/-- The condition of `c92_cut` is needed: the first byte of the file with the number 12 is the file with the number 1. -/
theorem c92_cut_number : (jsonRead ((jsonWrite (.num 12)).take 1)).map (fun j => match j with | .num n => n | _ => 0) = .ok 1 := by decide +kernel

/-- What `c92_cut` does not say of longer files: the first byte of a character after the document is not noticed, a whole character is. -/
theorem c92_longer : (jsonRead (jsonWrite (.arr []) ++ [0xD0])).isOk = true ∧ (jsonRead (jsonWrite (.arr []) ++ [0xD0, 0xB6])).isOk = false := by
  decide +kernel

/-! ### The folder of a dictionary -/

theorem seen_raw {f : File} (h : ∀ j, f = .json j → j.Plain) : f.raw.seen = f := by
  cases f with
  | json j => simp only [File.raw, RawFile.seen, c92_round_trip j (h j rfl)]
  | _ => rfl

theorem seen_set (d : RawDisk) (n : FName) (f : RawFile) : (d.set n f).seen = d.seen.set n f.seen := by
  funext n'
  simp only [RawDisk.seen, RawDisk.set, Disk.set]
  split <;> rfl

/-- The writes are of values Python can hold, and JSON files hold a list or a dict. -/
def Writable (ops : List (FName × File)) : Prop := ∀ w ∈ ops, ∀ j, w.2 = .json j → j.Plain ∧ j.Container

/-- After all the writes a reader gets what was to be written. -/
theorem c92_folder (ops : List (FName × File)) (h : Writable ops) (d : RawDisk) : (d.writeAll ops).seen = d.seen.writeAll ops := by
  induction ops generalizing d with
  | nil => rfl
  | cons w ws ih =>
    rw [RawDisk.writeAll, ih (fun w' hw' => h w' (List.mem_cons_of_mem _ hw')), seen_set, seen_raw (fun j hj => (h w (List.mem_cons_self ..) j hj).1)]
    rfl

/-- A process killed at any byte leaves a folder in which every file is as before, as it should be, or refused: the folders of `Killed`, where an unfinished JSON
file is `broken`, are all there are (or the work was done). -/
theorem c92_killed (ops : List (FName × File)) (h : Writable ops) (d d' : RawDisk) (hk : KilledRaw d ops d') :
    Killed d.seen ops d'.seen ∨ d'.seen = d.seen.writeAll ops := by
  induction hk with
  | before d w ws => exact .inl (.before _ _ _)
  | inside d w ws f hf =>
    rw [seen_set]
    obtain ⟨n, g⟩ := w
    cases hf with
    | json j b hb =>
      obtain ⟨hp, hc⟩ := h (n, .json j) (List.mem_cons_self ..) j rfl
      by_cases hlen : b.length < (jsonWrite j).length
      · left
        have hb' : b = (jsonWrite j).take b.length := List.prefix_iff_eq_take.mp hb
        have : (RawFile.text b).seen = .broken := by
          simp only [RawFile.seen]
          rw [hb', c92_cut j hp hc _ hlen]
        rw [this]
        exact .inside _ _ _ _ (.json j)
      · have : b = jsonWrite j := hb.eq_of_length_le (by omega)
        subst this
        have hs : (RawFile.text (jsonWrite j)).seen = .json j := by simp only [RawFile.seen, c92_round_trip j hp]
        rw [hs]
        cases ws with
        | nil => right; rfl
        | cons w' ws' => left; exact .later _ _ _ _ (.before _ _ _)
    | other _ f' hf hp => exact .inl (.inside _ _ _ _ hp)
  | later d d' w ws _ ih =>
    have e : (d.set w.1 w.2.raw).seen = d.seen.set w.1 w.2 := by
      rw [seen_set, seen_raw (fun j hj => (h w (List.mem_cons_self ..) j hj).1)]
    rcases ih (fun w' hw' => h w' (List.mem_cons_of_mem _ hw')) with hk | hk
    · left; rw [e] at hk; exact .later _ _ _ _ hk
    · right; rw [hk, e]; rfl

/-- The metadata fields a caller supplies hold values Python can hold. -/
def SaveInfo.Plain (i : SaveInfo) : Prop :=
  i.languageCode.Plain ∧ i.pymorphyVersion.Plain ∧ i.compiledAt.Plain ∧ i.source.Plain ∧ i.sourceVersion.Plain ∧ i.sourceRevision.Plain ∧
  i.lexemesCount.Plain ∧ i.linksCount.Plain ∧ i.wordsDawgLength.Plain ∧ i.predLengths.Plain ∧ i.minEndingFreq.Plain ∧ i.minParadigmPopularity.Plain

theorem plain_strs (l : List Str) : (Json.arr (l.map Json.str)).Plain := by
  refine .arr _ fun j hj => ?_
  obtain ⟨s, _, rfl⟩ := List.mem_map.mp hj
  exact .str s

theorem plain_rows (l : List GramRow) : (Json.arr (l.map rowJson)).Plain := by
  refine .arr _ fun j hj => ?_
  obtain ⟨r, _, rfl⟩ := List.mem_map.mp hj
  refine .arr _ ?_
  simp only [List.mem_cons, List.not_mem_nil, or_false, forall_eq_or_imp, forall_eq]
  refine ⟨.str _, ?_, .str _, .null⟩
  split
  · exact .str _
  · exact .null

theorem plain_meta {i : SaveInfo} (hi : i.Plain) (c : Compiled) : ∀ e ∈ metaOf i c, e.2.Plain := by
  obtain ⟨h1, h2, h3, h4, h5, h6, h7, h8, h9, h10, h11, h12⟩ := hi
  simp only [metaOf, List.mem_cons, List.not_mem_nil, or_false, forall_eq_or_imp, forall_eq]
  refine ⟨h1, .str _, h2, h3, h4, h5, h6, h7, h8, .num _, .obj _ (by decide) ?_, .num _, .num _, h9, .obj _ (by simp) ?_, h10⟩
  · simp only [List.mem_cons, List.not_mem_nil, or_false, forall_eq_or_imp, forall_eq]
    exact ⟨.str _, .str _⟩
  · simp only [List.mem_cons, List.not_mem_nil, or_false, forall_eq_or_imp, forall_eq]
    exact ⟨h11, h12, .num _, plain_strs _⟩

/-- `save_compiled_dict` writes such files. -/
theorem c92_save_writable (little : Bool) (i : SaveInfo) (rows : List GramRow) (c : Compiled) (ops : List (FName × File))
    (h : saveOps little i rows c = .ok ops) (hi : i.Plain) : Writable ops := by
  obtain ⟨b, hb, hops⟩ := saveOps_ok _ _ _ _ _ h
  intro w hw j hj
  rw [hops] at hw
  simp only [List.mem_append, List.mem_cons, List.not_mem_nil, or_false, List.mem_mapIdx] at hw
  rcases hw with ((rfl | rfl | rfl | rfl | rfl | rfl) | ⟨k, hk, rfl⟩) | rfl
  · cases hj; exact ⟨plain_rows _, trivial⟩
  · cases hj; exact ⟨plain_strs _, trivial⟩
  · cases hj; exact ⟨plain_strs _, trivial⟩
  · cases hj
  · cases hj; exact ⟨plain_strs _, trivial⟩
  · cases hj
  · cases hj
  · cases hj
    refine ⟨.arr _ fun j hj => ?_, trivial⟩
    obtain ⟨e, he, rfl⟩ := List.mem_map.mp hj
    refine .arr _ ?_
    simp only [List.mem_cons, List.not_mem_nil, or_false, forall_eq_or_imp, forall_eq]
    exact ⟨.str _, plain_meta hi c e he⟩

/-- A dictionary that was saved is loaded from the bytes of its files. -/
theorem c92_save_load (little : Bool) (i : SaveInfo) (rows : List GramRow) (c : Compiled) (ops : List (FName × File)) (d : RawDisk) (cls : TagCls)
    (h : saveOps little i rows c = .ok ops) (hi : i.Plain) (hp : c.pred.length = c.prefixes.length)
    (htags : ∀ s ∈ c.gramtab, (cls.init rows).mkTag s = .ok ⟨s⟩) :
    loadDict little (d.writeAll ops).seen cls = .ok (metaOf i c, cls.init rows, c.toDict) := by
  rw [c92_folder ops (c92_save_writable little i rows c ops h hi)]
  exact c56_round_trip little i rows c ops d.seen cls h hp htags

/-- Killed at any byte while saving into a folder without metadata: the folder is refused, unless all the bytes of the last file were there. -/
theorem c92_killed_fresh (little : Bool) (i : SaveInfo) (rows : List GramRow) (c : Compiled) (ops : List (FName × File)) (d d' : RawDisk) (cls : TagCls)
    (h : saveOps little i rows c = .ok ops) (hi : i.Plain) (hd : d .metaF = none) (hk : KilledRaw d ops d') :
    loadDict little d'.seen cls = .error .ioError ∨ loadDict little d'.seen cls = .error .valueError ∨
      loadDict little d'.seen cls = loadDict little (d.writeAll ops).seen cls := by
  have hw := c92_save_writable little i rows c ops h hi
  rcases c92_killed ops hw d d' hk with hk | hk
  · have := c57_killed_fresh little i rows c ops d.seen d'.seen cls h (by simp only [RawDisk.seen, hd, Option.map_none]) hk
    rcases this with h | h
    · exact .inl h
    · exact .inr (.inl h)
  · right; right
    rw [hk, c92_folder ops hw]

/-- Killed at any byte while saving into any folder: what can be loaded afterwards is what some whole number of the files, written in full, would give. -/
theorem c92_no_torn_file (little : Bool) (i : SaveInfo) (rows : List GramRow) (c : Compiled) (ops : List (FName × File)) (d d' : RawDisk) (cls : TagCls)
    (h : saveOps little i rows c = .ok ops) (hi : i.Plain) (hk : KilledRaw d ops d') (r : List (Str × Json) × TagCls × Dict)
    (hl : loadDict little d'.seen cls = .ok r) : ∃ k ≤ ops.length, loadDict little (d.writeAll (ops.take k)).seen cls = .ok r := by
  have hw := c92_save_writable little i rows c ops h hi
  have ht : ∀ k, (d.writeAll (ops.take k)).seen = d.seen.writeAll (ops.take k) := fun k =>
    c92_folder _ (fun w hw' => hw w (List.mem_of_mem_take hw')) d
  rcases c92_killed ops hw d d' hk with hk | hk
  · obtain ⟨k, hk', hl'⟩ := c57_no_torn_file little i rows c ops d.seen d'.seen cls h hk r hl
    exact ⟨k, hk', by rw [ht]; exact hl'⟩
  · refine ⟨ops.length, le_refl _, ?_⟩
    rw [ht, List.take_length, ← hk]
    exact hl

theorem dictSet_mem_cases {k : Str} {v : Json} {m : List (Str × Json)} {x : Str × Json} (hx : x ∈ dictSet k v m) : x.2 = v ∨ x ∈ m := by
  induction m with
  | nil =>
    simp only [dictSet, List.mem_cons, List.not_mem_nil, or_false] at hx
    exact .inl (by rw [hx])
  | cons e m ih =>
    obtain ⟨a, b⟩ := e
    rw [dictSet] at hx
    split at hx
    · rcases List.mem_cons.mp hx with rfl | hx
      · exact .inl rfl
      · exact .inr (List.mem_cons_of_mem _ hx)
    · rcases List.mem_cons.mp hx with rfl | hx
      · exact .inr (List.mem_cons_self ..)
      · rcases ih hx with h | h
        · exact .inl h
        · exact .inr (List.mem_cons_of_mem _ h)

/-- `update_meta` writes such a file when the metadata and the new entries are such values. -/
theorem c92_update_writable (d : Disk) (extra : List (Str × Json)) (ops : List (FName × File)) (h : updateMeta d extra = .ok ops)
    (hd : ∀ j, d .metaF = some (.json j) → j.Plain) (he : ∀ e ∈ extra, e.2.Plain) : Writable ops := by
  unfold updateMeta at h
  obtain ⟨m, hm, h⟩ := (bind_ok_iff _ _ _).mp h
  cases h
  have set_plain : ∀ (m : List (Str × Json)) (e : Str × Json), (∀ x ∈ m, x.2.Plain) → e.2.Plain → ∀ x ∈ dictSet e.1 e.2 m, x.2.Plain := by
    intro m e hm he x hx
    rcases dictSet_mem_cases hx with h | hx
    · rw [h]; exact he
    · exact hm x hx
  have fold_plain' : ∀ (l m : List (Str × Json)), (∀ x ∈ m, x.2.Plain) → (∀ x ∈ l, x.2.Plain) →
      ∀ x ∈ l.foldl (fun d e => dictSet e.1 e.2 d) m, x.2.Plain := by
    intro l
    induction l with
    | nil => intro m hm _; exact hm
    | cons e l ih =>
      intro m hm hl
      exact ih _ (set_plain m e hm (hl e (List.mem_cons_self ..))) (fun x hx => hl x (List.mem_cons_of_mem _ hx))
  have hmp : ∀ x ∈ m, x.2.Plain := by
    unfold loadMeta at hm
    obtain ⟨j, hj, hm⟩ := (bind_ok_iff _ _ _).mp hm
    have hjp : j.Plain := by
      unfold readJson at hj
      split at hj
      · cases hj
      · rename_i j' hf; cases hj; exact hd _ hf
      · cases hj
    split at hm
    · rename_i l
      obtain ⟨items, hi, hm⟩ := (bind_ok_iff _ _ _).mp hm
      cases hm
      refine fold_plain' _ _ (by simp) fun x hx => ?_
      obtain ⟨a, ha, hx⟩ := mapE_mem hi hx
      cases hjp with
      | arr _ hl =>
        have := hl a ha
        unfold metaItem at hx
        split at hx
        · cases hx
          cases this with
          | arr _ h2 => exact h2 _ (by simp)
        · cases hx
    · rename_i l
      cases hm
      cases hjp with
      | obj _ _ hl => exact fold_plain' _ _ (by simp) hl
    · cases hm
  intro w hw j hj
  simp only [List.mem_cons, List.not_mem_nil, or_false] at hw
  subst hw
  cases hj
  refine ⟨.arr _ fun j hj => ?_, trivial⟩
  obtain ⟨e, hem, rfl⟩ := List.mem_map.mp hj
  refine .arr _ ?_
  simp only [List.mem_cons, List.not_mem_nil, or_false, forall_eq_or_imp, forall_eq]
  exact ⟨.str _, fold_plain' _ _ hmp he e hem⟩

/-- A process killed while `update_meta` writes: the metadata is unchanged, or refused with `ValueError`, or updated. -/
theorem c92_update_killed (d d' : RawDisk) (extra : List (Str × Json)) (ops : List (FName × File)) (h : updateMeta d.seen extra = .ok ops)
    (hd : ∀ j, d.seen .metaF = some (.json j) → j.Plain) (he : ∀ e ∈ extra, e.2.Plain) (hk : KilledRaw d ops d') :
    d'.seen = d.seen ∨ (loadMeta d'.seen = .error .valueError ∧ ∀ n, n ≠ .metaF → d'.seen n = d.seen n) ∨ d'.seen = d.seen.writeAll ops := by
  have hw := c92_update_writable d.seen extra ops h hd he
  unfold updateMeta at h
  obtain ⟨m, hm, h⟩ := (bind_ok_iff _ _ _).mp h
  cases h
  rcases c92_killed _ hw d d' hk with hk | hk
  · generalize d'.seen = D at hk
    cases hk with
    | before => exact .inl rfl
    | inside _ _ _ f hf =>
      right; left
      generalize hF : metaFile (extra.foldl (fun d e => dictSet e.1 e.2 d) m) = F at hf
      have hf' : PartOf F f := hf
      unfold metaFile at hF
      subst hF
      cases hf'
      refine ⟨?_, fun n hn => ?_⟩
      · simp [loadMeta, readJson, Disk.set]
      · simp [Disk.set, hn]
    | later _ _ _ _ h => cases h
  · exact .inr (.inr hk)

/-! ### A dictionary on the disk -/

theorem Demo.info_plain : Demo.info.Plain := ⟨.str _, .null, .null, .null, .null, .null, .null, .null, .null, .null, .null, .null⟩

/-- The first `cut` bytes of a file, for JSON files. -/
def Demo.cutFile (f : File) (cut : Nat) : RawFile :=
  match f.raw with
  | .text b => .text (b.take cut)
  | r => r

/-- Save a dictionary with one lexeme: `k` files in full, and some bytes of the next. -/
def Demo.saveBytes (L : Lexeme) (k cut : Nat) : Except PyErr RawDisk := do
  let c ← compileLexemes dedupBuild dedupBuild { paradigmPrefixes := [c!""] } [L]
  let ops ← saveOps true Demo.info Demo.rows c
  let d := RawDisk.writeAll (fun _ => none) (ops.take k)
  pure (match ops[k]? with
    | some w => d.set w.1 (Demo.cutFile w.2 cut)
    | none => d)

/-- Such a folder is one a killed process leaves. -/
theorem Demo.cut_killed (ops : List (FName × File)) (k cut : Nat) (w : FName × File) (h : ops[k]? = some w) (j : Json) (hj : w.2 = .json j) (d : RawDisk) :
    KilledRaw d ops ((d.writeAll (ops.take k)).set w.1 (Demo.cutFile w.2 cut)) := by
  induction k generalizing ops d with
  | zero =>
    cases ops with
    | nil => cases h
    | cons a ops =>
      cases h
      refine .inside _ _ _ _ ?_
      rw [hj]
      exact .json j _ (List.take_prefix _ _)
  | succ k ih =>
    cases ops with
    | nil => cases h
    | cons a ops =>
      rw [List.take_succ_cons, RawDisk.writeAll]
      exact .later _ _ _ _ (ih ops h _)

/-- All 8 files: the dictionary is loaded.  The last file without its last byte, the list of suffixes without its last byte, no file: refused. -/
example : (do
    let d ← Demo.saveBytes [(c!"ab", c!"NOUN"), (c!"ac", c!"VERB")] 8 0
    Demo.loadLookup d.seen (c!"ac")) = .ok [c!"ab"] := by
  decide +kernel

example : (do
    let d ← Demo.saveBytes [(c!"ab", c!"NOUN"), (c!"ac", c!"VERB")] 7 928
    Demo.loadLookup d.seen (c!"ac")) = .error .valueError := by
  decide +kernel

example : (do
    let d ← Demo.saveBytes [(c!"ab", c!"NOUN"), (c!"ac", c!"VERB")] 7 929
    Demo.loadLookup d.seen (c!"ac")) = .ok [c!"ab"] := by
  decide +kernel

/-- Metadata read from bytes can be updated (`c92_update_killed`). -/
example : (do
    let d ← Demo.saveBytes [(c!"ab", c!"NOUN"), (c!"ac", c!"VERB")] 8 0
    let ops ← updateMeta d.seen [(c!"x", .num 1)]
    let m ← loadMeta (d.writeAll ops).seen
    pure (m.length, ops.length)) = .ok (17, 1) := by
  decide +kernel

end Verif
