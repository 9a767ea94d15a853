import Verif.PostGrid
/-!
Names of the columns added by post processing, for C94: they are the attributes later steps read.
-/
namespace Verif.PostGrid

/-- The quantities of common envelopes that grid steps read and later steps use, `/repo/posydon/binary_evol/singlestar.py` l.102-105 and `/repo/posydon/binary_evol/MESA/step_mesa.py` l.852-863. -/
def ceNames : List (List Char) :=
  [(chars! "lambda_CE_1cent"), (chars! "lambda_CE_10cent"), (chars! "lambda_CE_30cent"), (chars! "lambda_CE_pure_He_star_10cent"),
   (chars! "m_core_CE_1cent"), (chars! "m_core_CE_10cent"), (chars! "m_core_CE_30cent"), (chars! "m_core_CE_pure_He_star_10cent"),
   (chars! "r_core_CE_1cent"), (chars! "r_core_CE_10cent"), (chars! "r_core_CE_30cent"), (chars! "r_core_CE_pure_He_star_10cent")]

/-- C94: the columns of common envelopes are the attributes of a star, with the prefix of the star. -/
theorem C94_envelope_names (k : Bool) : ([CEq.lambda, .mCore, .rCore].flatMap fun q => [CEv.c1, .c10, .c30, .he10].map fun v => Col.name (.ce k q v)) =
    ceNames.map fun n => (if k then (chars! "S2_") else (chars! "S1_")) ++ n := by
  revert k
  decide +kernel

/-- C94: so are the other columns of a star. -/
theorem C94_star_names (k : Bool) : [Col.heC k, .heMass k, .state k, .surf k, .center k].map Col.name =
    [(chars! "avg_c_in_c_core_at_He_depletion"), (chars! "co_core_mass_at_He_depletion"), (chars! "state"), (chars! "surface_other"), (chars! "center_other")].map
      fun n => (if k then (chars! "S2_") else (chars! "S1_")) ++ n := by
  revert k
  decide +kernel

/-- C94: the columns of a collapse have the prefix of the star, the name of the model and the quantity; the state is the type of the compact object. -/
theorem C94_collapse_names (k : Bool) (m : String) (q : CC) : Col.name (.cc k m q) =
    (if k then (chars! "S2_") else (chars! "S1_")) ++ m.toList ++ '_' :: (match q with
      | .state => (chars! "CO_type") | .snType => (chars! "SN_type") | .fFb => (chars! "f_fb") | .mass => (chars! "mass") | .spin => (chars! "spin")
      | .accreted => (chars! "m_disk_accreted") | .radiated => (chars! "m_disk_radiated") | .cls => (chars! "CO_interpolation_class") | .m4 => (chars! "M4")
      | .mu4 => (chars! "mu4") | .h1 => (chars! "h1_mass_ej") | .he4 => (chars! "he4_mass_ej")) := by
  have h : ∀ q : CC, (chars! "_") ++ q.name.toList = '_' :: (match q with
      | .state => (chars! "CO_type") | .snType => (chars! "SN_type") | .fFb => (chars! "f_fb") | .mass => (chars! "mass") | .spin => (chars! "spin")
      | .accreted => (chars! "m_disk_accreted") | .radiated => (chars! "m_disk_radiated") | .cls => (chars! "CO_interpolation_class") | .m4 => (chars! "M4")
      | .mu4 => (chars! "mu4") | .h1 => (chars! "h1_mass_ej") | .he4 => (chars! "he4_mass_ej")) := by
    intro q
    cases q <;> decide +kernel
  show sOf k ++ m.toList ++ (chars! "_") ++ q.name.toList = _
  rw [List.append_assoc, h q]
  rfl

end Verif.PostGrid
