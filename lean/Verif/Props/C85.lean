/-
C85 — from the OpenCorpora XML file to the analyzed text, on CPython.
-/
import Verif.Props.C65
import Verif.Props.C83
import Verif.Props.C84

set_option linter.unusedSectionVars false

open Verif.Cpython

namespace Verif

/-- Tangut ideographs are what the interpreter has no names for (C80). -/
def NoTangut (w : Str) : Prop := ∀ c ∈ w, isTangut c = false

/-- Every form of the lemma is reached from the analysis `q`: the lexeme of `q` has such a form `b`, and asking for the grammemes of `b` gives a form
with all of them: `b` itself, unless the lexeme has a form with still more grammemes or an earlier one with the same. -/
def ReachesForms (m : Morph Rat) (sim : Sim) (q : Parse Rat) (forms : Lexeme) : Prop :=
  ∃ fs, m.lexeme q = .ok fs ∧ ∀ f ∈ forms, ∃ b ∈ fs, b.word = f.1 ∧ meaning b.tag.str = meaning f.2 ∧
    ∃ r ∈ fs, m.inflect sim q b.tag.tuple = .ok (some r) ∧ r.carries b.tag.tuple ∧ (Widest fs b → FirstOfItsKind fs b → r = b)

/-- **C85.** An OpenCorpora XML file that declares the grammemes the rules use is converted on CPython, and the analyzer is made from the folder.  Then
every token of every text is analyzed (but for Tangut ideographs); every form of every lemma of the file is found, with its lexeme; and from it every other
form of the lemma is reached by `inflect`. -/
theorem c85_end_to_end (a : ConvArgs) (doc : Elem) (henv : a.env = cpython) (hg : GoodDoc a.env doc) (overwrite : Bool) (reg : Registry)
    (folder : Option Disk) (hrun : folder = none ∨ overwrite = true) (hok : (a.convert doc overwrite reg folder).outcome = .ok ())
    (hdecl : ∀ g ∈ [c!"ADVB", c!"NOUN", c!"anim", c!"masc", c!"femn", c!"Sgtm", c!"Fixd", c!"Abbr", c!"sing", c!"nomn", c!"gent", c!"datv",
      c!"accs", c!"ablt", c!"loct", c!"ADJF"], Declared doc g) :
    ∃ d, (a.convert doc overwrite reg folder).folder = some d ∧
      ∀ (s : Sys) (cls : TagCls) (m : MorphArgs Rat) (path : Str), s.little = a.little → s.env = a.env → s.disk path = d →
        m.path = some path → m.units = none → m.est = .auto →
        ∃ x, construct s cls m = .ok x ∧
          (∀ text, NoTangut text → ∀ t ∈ tokenize text, (∃ ps, x.morph.parse t = .ok ps ∧ ps ≠ [] ∧ ∀ p ∈ ps, 0 < p.score) ∧
            ∃ ts, x.morph.tag t = .ok ts ∧ ts ≠ []) ∧
          ∀ e ∈ doc.iter (c!"lemma"), ∃ id, e.get (c!"id") = some id ∧ ∀ forms, LemmaForms a.env e forms →
            ∀ f ∈ kept forms, NoTangut f.1 → ∃ ps, x.morph.parse f.1 = .ok ps ∧ Found a.env doc x.morph id forms f ps ∧
              ∃ q ∈ ps, q.word = f.1 ∧ meaning q.tag.str = meaning f.2 ∧ ∀ sim : Sim, sim.Ordered → ReachesForms x.morph sim q (kept forms) := by
  have hlow : a.env.LowerStable := henv ▸ c80_lower_stable
  obtain ⟨d, ls, Q, num, c, hd, hQ, hsome, hcp, hall⟩ := construct_converted (S := Rat) a doc hg overwrite reg folder hrun hok
    (fun g hgm => hdecl g (by
      have : g ∈ c!"ADVB" :: initialsGrammemes := hgm
      unfold initialsGrammemes at this
      simp only [List.mem_cons, List.not_mem_nil, or_false] at this ⊢
      tauto))
  refine ⟨d, hd, ?_⟩
  intro s cls m path h1 h2 h3 h4 h5 h6
  obtain ⟨x, hx, hl, hru, hxe, hdict, hest, hknown⟩ := hall s cls m path h1 h2 h3 h4 h5 h6
  have hcp' : x.morph.env = cpython := hxe.trans henv
  obtain ⟨lj, hlj, hcl⟩ := compile_split hcp
  have hwf : x.morph.dict.WF := hdict ▸ c30_sound a.bw a.bp a.opts lj c hcl
  have hk : ∀ g ∈ [c!"ADJF", c!"sing", c!"datv"], g ∈ x.morph.cls.known := by
    intro g hgm
    apply hknown
    apply hdecl
    simp only [List.mem_cons, List.not_mem_nil, or_false] at hgm ⊢
    tauto
  have hdc : x.morph.DataComplete := by
    intro dawg hdw; rw [hest] at hdw; cases hdw
  have htot := fun w (hw : NoTangut w) => c80_total x.morph hru hcp' hwf hk hdc w hw
  refine ⟨x, hx, ?_, ?_⟩
  · intro text ht t htk
    refine htot t ?_
    intro c hc
    have : c ∈ (tokenize text).flatten := List.mem_flatten.2 ⟨t, htk, hc⟩
    rw [(c83_tokens text).2.1] at this
    exact ht c (List.mem_filter.1 this).1
  · intro e he
    have hid : ∃ id, e.get (c!"id") = some id := by
      obtain ⟨l, hlm, hw⟩ := mem_left hQ.read he
      obtain ⟨l', hl', hf, _⟩ := mem_left hQ.lexemes hlm
      obtain ⟨s, hs⟩ := hsome l'.1 (List.mem_map_of_mem hl')
      exact ⟨s, by rw [← wordForms_id hw, ← hf, hs]⟩
    obtain ⟨id, hid⟩ := hid
    refine ⟨id, hid, ?_⟩
    intro forms hf f hfm hnt
    obtain ⟨⟨ps, hps, _⟩, _⟩ := htot f.1 hnt
    have hfound := found_of a.env doc hg ls Q hQ num a.bw a.bp a.opts c hcp x.morph hru hlow hxe hdict e he id hid forms hf f hfm ps hps
    refine ⟨ps, hps, hfound, ?_⟩
    obtain ⟨q, hq, q1, q2, fs, hfs, _, hdec, ⟨before, own, after, hsplit, hsame⟩, _⟩ := hfound
    refine ⟨q, hq, q1, q2, fun sim ho => ⟨fs, hfs, fun f' hf' => ?_⟩⟩
    obtain ⟨b, hb, hb1, hb2⟩ := mem_left hsame hf'
    have hbf : b ∈ fs := by rw [hsplit]; simp [hb]
    obtain ⟨r, k1, k2, k3, k4⟩ := c84_reach x.morph sim ho q fs hfs b hbf fun g hgb => hknown g (hdec b hbf g hgb)
    exact ⟨b, hbf, hb1, hb2, r, k2, k1, k3, fun hw hfst => (k4 hw).2.2 hfst⟩

/-! ### A case -/

def Demo.convC : ConvArgs := { Demo.convArgs with env := cpython }

/-- белый, белому and наибелый converted and used on CPython. -/
theorem Demo.convC_ok : GoodDoc Demo.convC.env Demo.cdoc ∧
    (let r := Demo.convC.convert Demo.cdoc false Registry.initial none
    r.outcome = .ok () ∧ (construct (S := Rat) { Demo.sys with disk := fun _ => r.folder.getD Disk.fresh, env := cpython } TagCls.initial { path := some (c!"/d") }).map
      (fun x => Demo.firstLexeme x.morph (c!"НАИБЕЛЫЙ")) = .ok (some [c!"белый", c!"белому", c!"наибелый"])) :=
  ⟨Demo.cdoc_good_of _ (by decide +kernel), by decide +kernel⟩

example : ∃ d, (Demo.convC.convert Demo.cdoc false Registry.initial none).folder = some d ∧
    ∃ x, construct (S := Rat) { Demo.sys with disk := fun _ => d, env := cpython } TagCls.initial { path := some (c!"/d") } = .ok x ∧
      ∀ t ∈ tokenize (c!"Белому, ей?"), ∃ ps, x.morph.parse t = .ok ps ∧ ps ≠ [] := by
  obtain ⟨d, hd, h⟩ := c85_end_to_end Demo.convC Demo.cdoc rfl Demo.convC_ok.1 false Registry.initial none (.inl rfl) Demo.convC_ok.2.1
    (fun g hg => Demo.converted.2.2.1 g hg)
  obtain ⟨x, hx, h1, _⟩ := h { Demo.sys with disk := fun _ => d, env := cpython } TagCls.initial { path := some (c!"/d") } (c!"/d") rfl rfl rfl rfl rfl rfl
  exact ⟨d, hd, x, hx, fun t ht => by
    obtain ⟨⟨ps, h2, h3, _⟩, _⟩ := h1 (c!"Белому, ей?") (by unfold NoTangut; decide +kernel) t ht
    exact ⟨ps, h2, h3⟩⟩

end Verif
