import Verif.Model.Factory
import Mathlib.Data.Int.Log

/-! `create_sphere_geodesic` in rounded arithmetic.  The other modules compute with exact
numbers; here every `+ - * /`, every `sqrt` and every decimal constant that is not a double
is followed by a rounding `fl`, in the order in which the C++ code evaluates them.  The
control flow is that of the exact model (`Tessellate.computeBy`, `MeshUtil.mergeVerticesBy`,
`Factory.icosahedronWith`).  Conversions from `int` to `double`, negation and comparison are
exact.  Fused multiply-add contraction is not considered. -/

namespace CAD

/-- What IEEE 754 says about a rounded result, as far as it is used here: as long as the
exact value is in range (`Ω`), it is off by at most `u` relative to it, and in the range of
gradual underflow by at most `η`.  Out of range nothing is said (overflow).  For doubles
rounded to nearest: `u = 2⁻⁵³`, `η = 2⁻¹⁰⁷⁵`, `Ω = 2¹⁰²³`. -/
structure Rounds (u η Ω : ℝ) (fl : ℝ → ℝ) : Prop where
  err : ∀ x, |x| ≤ Ω → |fl x - x| ≤ u * |x| + η

/-- the integer nearest to `y`, the even one if there are two -/
noncomputable def roundEven (y : ℝ) : ℤ :=
  if Int.fract y < 1 / 2 then ⌊y⌋
  else if 1 / 2 < Int.fract y then ⌊y⌋ + 1
  else if Even ⌊y⌋ then ⌊y⌋ else ⌊y⌋ + 1

/-- rounding to a binary floating point format with `p` significant bits and gradual underflow
to `2ᵉᵐⁱⁿ`, to nearest, ties to even; without the upper end of the range -/
noncomputable def ieee (p : ℕ) (emin : ℤ) (x : ℝ) : ℝ :=
  let e : ℤ := max emin (Int.log 2 |x| - (p - 1))
  roundEven (x / 2 ^ e) * 2 ^ e

/-- rounding to `double`, IEEE 754 binary64 -/
noncomputable def double : ℝ → ℝ := ieee 53 (-1074)

/-- rounding to `float`, IEEE 754 binary32 -/
noncomputable def single : ℝ → ℝ := ieee 24 (-149)

namespace Rounded
variable (fl : ℝ → ℝ)

/-- `Point3::operator+` 90-99 -/
def add (p q : P3 ℝ) : P3 ℝ := ⟨fl (p.x + q.x), fl (p.y + q.y), fl (p.z + q.z)⟩

/-- `Point3::operator-` 123-132 -/
def sub (p q : P3 ℝ) : P3 ℝ := ⟨fl (p.x - q.x), fl (p.y - q.y), fl (p.z - q.z)⟩

/-- `Point3::operator*` 101-110 -/
def scale (d : ℝ) (p : P3 ℝ) : P3 ℝ := ⟨fl (d * p.x), fl (d * p.y), fl (d * p.z)⟩

/-- `squared` 5-8 -/
def squared (a : ℝ) : ℝ := fl (a * a)

/-- `Point3::distance_square` 134-137 -/
def distSq (p q : P3 ℝ) : ℝ :=
  fl (fl (squared fl (fl (p.x - q.x)) + squared fl (fl (p.y - q.y))) + squared fl (fl (p.z - q.z)))

/-- the argument of `sqrt` in `Point3::norm` 150-153 -/
def normSq (p : P3 ℝ) : ℝ := fl (fl (fl (p.x * p.x) + fl (p.y * p.y)) + fl (p.z * p.z))

open Classical in
/-- `Point3::normalized` 160-164.  `none`: the norm is NaN or zero, and so the result has
NaN or infinite coordinates. -/
noncomputable def normalized (p : P3 ℝ) : Res (P3 ℝ) :=
  if normSq fl p < 0 then none
  else
    let norm := fl (Real.sqrt (normSq fl p))
    if norm = 0 then none
    else
      let d := fl (1 / norm)
      some (scale fl d p)

/-- `MeshTessellate::interpolate` 50-56 -/
noncomputable def interpolate (a b c : P3 ℝ) (uStep vStep maxStep : Int) : P3 ℝ :=
  let tu := fl ((uStep : ℝ) / (maxStep : ℝ))
  let tv := fl ((vStep : ℝ) / (maxStep : ℝ))
  add fl (add fl a (scale fl tu (sub fl b a))) (scale fl tv (sub fl c a))

/-- `create_icosahedron` 128-177 -/
noncomputable def createIcosahedron (dSize : ℝ) (m : Mesh ℝ) : Res (Mesh ℝ) :=
  let u := dSize
  let t := fl (fl (fl (fl (Real.sqrt 5) - 1) / 2) * dSize)
  Factory.icosahedronWith u t m

/-- the comparison of `merge_vertices`, lines 64 and 79-80 of MeshUtil.cpp -/
noncomputable def nearTol (tol : ℝ) (v1 v2 : P3 ℝ) : Bool :=
  let tolSq := fl (tol * tol)
  decide (distSq fl v1 v2 < tolSq)

/-- `create_sphere_geodesic` 221-241 -/
noncomputable def createSphereGeodesic (dRadius : ℝ) (iNbSegments : Int) (m : Mesh ℝ) :
    Res (Mesh ℝ) := do
  let m := m.clear
  let mi ← createIcosahedron fl 1 Mesh.new
  let m ← Tessellate.computeBy (interpolate fl) mi iNbSegments m
  let m ← loopN m.nbVertices.toNat (fun i m => do
    let v ← m.getVertex i
    let n ← normalized fl v
    m.setVertex i (scale fl dRadius n)) m
  let dEdgesize := fl (dRadius / fl (951 / 1000))
  MeshUtil.mergeVerticesBy (nearTol fl (fl (fl (dEdgesize / iNbSegments) / 20))) 0 m

end Rounded
end CAD
