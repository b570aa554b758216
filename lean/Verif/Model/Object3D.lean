import Verif.Model.FilterBank3D

/-!
# `HarmonicScattering3D` objects (frontend/base_frontend.py, numpy_frontend.py, torch_frontend.py)
-/

namespace Verif

/-- Constructor arguments (numpy_frontend.py L8-9); `points` is not used by the code. -/
structure Args3D where
  J : ℕ
  shape : Idx3
  L : ℕ
  sigma0 : ℝ
  maxOrder : ℤ
  rot : Bool
  /-- whether `method` is `'integral'` -/
  methodOk : Bool
  powers : List ℝ

/-- `create_filters` (base_frontend.py L25-30); `Y` is `sph_harm`. -/
noncomputable def Args3D.filters (a : Args3D) (Y : ℤ → ℕ → ℝ → ℝ → ℂ) : List (List (List (Vol ℂ))) :=
  solidHarmonicBank Y a.shape a.J a.L a.sigma0

/-- `scattering` of the numpy frontend (numpy_frontend.py L22-49) on one volume: rows of features, `l` on the second axis,
powers on the third.  `method` is ignored by this frontend. -/
noncomputable def Args3D.run (a : Args3D) (Y : ℤ → ℕ → ℝ → ℝ → ℂ) (x : Vol ℝ) :
    Py (List (List (List ℝ))) :=
  if x.shape ≠ a.shape then .error .runtime
  else Core3D.scattering3d (np3Backend a.powers) x (a.filters Y) a.rot a.L a.J a.maxOrder

/-- The same on a batch: all volumes have the shape of the array. -/
noncomputable def Args3D.runBatch (a : Args3D) (Y : ℤ → ℕ → ℝ → ℝ → ℂ) (s : Idx3)
    (xs : List (Vol ℝ)) : Py (List (List (List (List ℝ)))) :=
  if s ≠ a.shape then .error .runtime
  else Core3D.scattering3d (np3Batch a.powers) xs (a.filters Y) a.rot a.L a.J a.maxOrder

/-- `scattering` of the torch frontend (torch_frontend.py L38-79) on one volume; `register_filters`
(L24-36) stores the filters as pairs. -/
noncomputable def Args3D.runTorch (a : Args3D) (Y : ℤ → ℕ → ℝ → ℝ → ℂ) (x : Vol ℝ) :
    Py (List (List (List ℝ))) :=
  if x.shape ≠ a.shape then .error .runtime
  else if ¬ a.methodOk then .error .value
  else Core3D.scattering3d (torch3Backend a.powers) x
    ((a.filters Y).map fun fl => fl.map fun fs => fs.map view3R) a.rot a.L a.J a.maxOrder

end Verif
