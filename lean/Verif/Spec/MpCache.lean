import Verif.Model.MpCache

/-! What the cached functions of the multi-precision package should give: the value without any cache. -/

namespace Jaxoplanet.Starry.Spec

open _root_.Jaxoplanet.Starry.Mp

/-- the result of a call with no cache at all, at the precision `dps`, for a cache object that was created with the
inner dictionaries `dflt`. The four matrices of the map rotation are the quarter turns about x, the rotation by the
obliquity about z and the rotation by the complement of the inclination about the axis `(-cos obl, -sin obl, 0)`.
`none`: the call has no meaning (an unknown matrix, or an angle-dependent matrix without both angles). -/
noncomputable def direct {V : Type} (K : Kernels V) (dflt : List String) (dps : ℕ) : Op → Option (Out V)
  | .A1 l => some (.mat (K.A1 dps l))
  | .A2 l => some (.mat (K.A2 dps l))
  | .R name l (some obl) (some inc) =>
    if name = "R_obl" then some (if "R_obl" ∈ dflt then .mat (K.R dps l (0, 0, 1) (-obl)) else .keyError)
    else if name = "R_inc" then
      some (if "R_inc" ∈ dflt then .mat (K.R dps l (-Real.cos obl, -Real.sin obl, 0) (Real.pi / 2 - inc)) else .keyError)
    else none
  | .R name l _ _ =>
    if name = "R_px" then some (.mat (K.R dps l (1, 0, 0) (-(Real.pi / 2))))
    else if name = "R_mx" then some (.mat (K.R dps l (1, 0, 0) (Real.pi / 2)))
    else none
  | .sT l b r => some (if "sT" ∈ dflt then .mat (K.sT dps l b r) else .keyError)

end Jaxoplanet.Starry.Spec
