import Verif.PostGrid
/-!
The complete tables of the columns of predefined models, for C94.
-/
namespace Verif.PostGrid

/-- The columns of a star apart from its collapse. -/
def base (k : Bool) : List Col :=
  [.heC k, .heMass k, .state k, .surf k, .center k] ++ (ceQs.flatMap fun q => ceVs.map fun v => .ce k q v)

/-- The table of the predefined models: where the columns of the collapse go, and whether they are text. -/
theorem places_table : ∀ m ∈ Single.models, ∀ k ∈ [false, true], ∀ q ∈ quantities,
    places Single.models (Col.name (.cc k m q)) = [(some m, sOf k ++ q.name.toList)] ∧
    isText (Col.name (.cc k m q)) = decide (q ∈ [CC.state, .snType, .cls]) := by
  decide +kernel

/-- The other columns. -/
theorem base_table : ∀ x ∈ .mt :: (base false ++ base true), places Single.models x.name = [(none, x.name)] ∧
    isText x.name = decide (x ∈ [Col.mt, .state false, .state true]) := by
  decide +kernel

theorem short_inj : ∀ k ∈ [false, true], ∀ q ∈ quantities, ∀ k' ∈ [false, true], ∀ q' ∈ quantities, sOf k ++ q.name.toList = sOf k' ++ q'.name.toList → k = k' ∧ q = q' := by
  decide +kernel

theorem base_inj : ∀ x ∈ Col.mt :: (base false ++ base true), ∀ y ∈ Col.mt :: (base false ++ base true), x.name = y.name → x = y := by
  decide +kernel

end Verif.PostGrid
