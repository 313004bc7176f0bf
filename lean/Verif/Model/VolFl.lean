import Verif.Model.FixMesh
import Mathlib.Logic.Equiv.Basic

/-!
# `simp_vol` in floating-point arithmetic

SeismicMesh/geometry/utils.py:175-199 with every operation followed by a rounding `rnd`. `np.einsum` does not specify in which order
it adds the three products: `s` is that order. Not modelled: fused multiply-add, overflow.
-/

namespace SM.VolFl

variable {K : Type} [Field K]

/-- `simp_vol`, dim 2, geometry/utils.py:191-194. -/
def vol2 (rnd : K → K) (a b c : Fin 2 → K) : K :=
  let d01 := fun i => rnd (b i - a i)
  let d02 := fun i => rnd (c i - a i)
  rnd (rnd (rnd (d01 0 * d02 1) - rnd (d01 1 * d02 0)) / 2)

/-- `np.cross`, used in geometry/utils.py:199. -/
def cross (rnd : K → K) (u v : Fin 3 → K) : Fin 3 → K :=
  ![rnd (rnd (u 1 * v 2) - rnd (u 2 * v 1)), rnd (rnd (u 2 * v 0) - rnd (u 0 * v 2)), rnd (rnd (u 0 * v 1) - rnd (u 1 * v 0))]

/-- `simp_vol`, dim 3, geometry/utils.py:195-199. -/
def vol3 (rnd : K → K) (s : Equiv.Perm (Fin 3)) (a b c d : Fin 3 → K) : K :=
  let d01 := fun i => rnd (b i - a i)
  let d02 := fun i => rnd (c i - a i)
  let d03 := fun i => rnd (d i - a i)
  let x := fun i => rnd (cross rnd d01 d02 i * d03 i)
  rnd (rnd (rnd (x (s 0) + x (s 1)) + x (s 2)) / 6)

/-- One 2-D entity, geometry/utils.py:191-194. -/
def rowVol2 (rnd : K → K) : List (Fin 2 → K) → K
  | [a, b, c] => vol2 rnd a b c
  | _ => 0

/-- One 3-D entity, geometry/utils.py:195-199. -/
def rowVol3 (rnd : K → K) (s : Equiv.Perm (Fin 3)) : List (Fin 3 → K) → K
  | [a, b, c, d] => vol3 rnd s a b c d
  | _ => 0

end SM.VolFl
