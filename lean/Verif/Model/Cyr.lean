/-
Model of `CyrillicOpencorporaTag` (/repo/pymorphy2/tagset.py:524-577) as far as saving and loading dictionaries use it, and of what saving
does to the tag classes (/repo/pymorphy2/opencorpora_dict/storage.py:95-103).
-/
import Verif.Model.Preprocess
import Verif.Model.Storage

namespace Verif

/-- The state of the two tag classes of the registry (tagset.py:599-602).  `CyrillicOpencorporaTag` is a subclass of `OpencorporaTag`: it reads
the attributes of the latter until it has its own. -/
structure Registry where
  /-- `OpencorporaTag` -/
  base : TagCls
  /-- `CyrillicOpencorporaTag.KNOWN_GRAMMEMES` (nothing reads it before `_init_grammemes` has set it) -/
  cyrKnown : Grams
  /-- `CyrillicOpencorporaTag._GRAMMEME_ALIAS_MAP`, in insertion order -/
  aliasMap : List (Str × Str)
  /-- `CyrillicOpencorporaTag` has its own `_GRAMMEME_INDICES` and `_GRAMMEME_INCOMPATIBLE` (their contents, which only the methods of
  Cyrillic tags read, are not modelled) -/
  owned : Bool

/-- The classes after `import pymorphy2`. -/
def Registry.initial : Registry := ⟨TagCls.initial, ∅, [], false⟩

/-- tagset.py:574-577 `_init_alias_map`: nothing is ever removed. -/
def addAliases (m : List (Str × Str)) (rows : List GramRow) : List (Str × Str) := rows.foldl (fun m r => dictSet r.name r.alias_ m) m

/-- tagset.py:547-572 `CyrillicOpencorporaTag._init_grammemes`.  The inherited method (tagset.py:433-473) sets the known grammemes and the
translation tables of the subclass only, but it extends the sets in `_EXTRA_INCOMPATIBLE` in place, which the classes share, and the first time it
writes into the `_GRAMMEME_INDICES` and `_GRAMMEME_INCOMPATIBLE` inherited from `OpencorporaTag`. -/
def Registry.initCyr (r : Registry) (rows : List GramRow) : Registry where
  base := if r.owned then r.base.expandExtra rows else TagCls.fillRows rows rows.zipIdx (r.base.expandExtra rows)
  cyrKnown := (rows.map GramRow.name).toFinset
  aliasMap := addAliases r.aliasMap rows
  owned := true

/-- tagset.py:538-542 `_from_internal_tag` (for grammeme names that are not empty). -/
def fromInternal (aliasMap : List (Str × Str)) (tag : Str) : Str :=
  aliasMap.foldl (fun t e => if e.2 = [] then t else pyReplace t e.1 e.2) tag

/-- storage.py:95-103: the classes after the loop over the registry, and the content of gramtab-opencorpora-ext.json. -/
def Registry.save (r : Registry) (rows : List GramRow) (gramtab : List Str) : Registry × List Str :=
  let r1 := r.initCyr rows
  ({ r1 with base := r1.base.init rows }, gramtab.map (fromInternal r1.aliasMap))

/-- storage.py:49-55, 175-196: the first half of `load_dict(path, 'opencorpora-ext')`, up to the construction of the tags.  Unlike
the other functions it returns the state of the classes also when it fails. -/
def Registry.loadExt (r : Registry) (d : Disk) : Registry × Except PyErr (List Tag) :=
  match (do
    let m ← loadMeta d
    assertFormat m
    let g ← readJson d .grammemes
    let rows ← rowsOf g
    pure (m, rows)) with
  | .error e => (r, .error e)
  | .ok (m, rows) =>
    let r' := r.initCyr rows
    (r', do
      let strs ← loadGramtab d m (c!"opencorpora-ext")
      mapE ({ r'.base with known := r'.cyrKnown } : TagCls).mkTag strs)

end Verif
