import Verif.Cores
/-!
The metallicity of a star through the steps of an evolution: `Verif.CE` (step_CEE.py l.1159-1186, which keeps `metallicity`), `Verif.SNStep`
(step_SN.py l.965, which takes the last recorded one), `Verif.Merged` (step_merged.py), the grid steps of
`/repo/posydon/binary_evol/MESA/step_mesa.py` l.603-609, 693-699, 911-914, 943-945 and detached evolution, which write back the value they find.

A star is seen as its attribute `metallicity` now and in its last record, each of which may be unknown (`None` or NaN).
-/
namespace Verif.Metal

noncomputable section
open Classical

structure Seen where
  now : Option ℝ
  last : Option ℝ

/-! ### Specification -/

/-- Nothing but the metallicity `z` is known of the star. -/
def Only (z : ℝ) (s : Seen) : Prop := (∀ x, s.now = some x → x = z) ∧ (∀ x, s.last = some x → x = z)

/-! ### The steps -/

def ofSN (s : SNStep.Star) : Seen := ⟨Cores.number (s.attr "metallicity"), Cores.number s.lastZ⟩

/-- The records of a star of the merger step are given by `last`. -/
def ofMerged (s : Merged.Star) (last : Option ℝ) : Seen := ⟨Cores.numberQ (s.get "metallicity"), last⟩

/-- One step: the two stars before and after; `record` is the end of a step, where the attributes are appended to the histories (binarystar.py
`append_state`); before it the histories do not change. -/
inductive Step : Seen × Seen → Seen × Seen → Prop
  | ce (cfg : CE.Cfg) (b b' : CE.Binary) (u v : Option ℝ) (h : CE.step cfg b = .ok b') :
      Step (⟨b.star1.metallicity, u⟩, ⟨b.star2.metallicity, v⟩) (⟨b'.star1.metallicity, u⟩, ⟨b'.star2.metallicity, v⟩)
  | sn (c : SNStep.Cfg) (b b' : SNStep.Binary) (h : SNStep.step c b = .ok b') :
      Step (ofSN b.s1, ofSN b.s2) (⟨(ofSN b'.s1).now, (ofSN b.s1).last⟩, ⟨(ofSN b'.s2).now, (ofSN b.s2).last⟩)
  | merged (cfg : Merged.Cfg) (b b' : Merged.Binary) (u v : Option ℝ) (h : Merged.call cfg b = .ok b') :
      Step (ofMerged b.star1 u, ofMerged b.star2 v) (ofMerged b'.star1 u, ofMerged b'.star2 v)
  | quiet (x y : Seen) : Step (x, y) (x, y)
  | record (x y : Seen) : Step (x, y) (⟨x.now, x.now⟩, ⟨y.now, y.now⟩)

end
end Verif.Metal
