import Verif.Model.Bezier
import Verif.Model.Rounded

/-! `QuadBezierTriangle::eval`, `QuadBezierTriangle::add_to_mesh` and `SmoothMesh::add_to_mesh` in rounded arithmetic: every operation is
followed by a rounding `fl`, in the order of the C++. -/

namespace CAD
namespace QuadBez
variable (fl : ℝ → ℝ)

/-- the sums of `eval` 52-66 for one coordinate or for the weight; `a1` … are `_P1 * _wP1` … or `_wP1` … -/
def sumRounded (a1 a2 a3 a12 a13 a23 s u v : ℝ) : ℝ :=
  let t1 := fl (fl (a1 * s) * s)
  let t2 := fl (fl (a2 * u) * u)
  let t3 := fl (fl (a3 * v) * v)
  let t12 := fl (fl (fl (a12 * 2) * s) * u)
  let t13 := fl (fl (fl (a13 * 2) * s) * v)
  let t23 := fl (fl (fl (a23 * 2) * u) * v)
  fl (fl (fl (fl (fl (t1 + t2) + t3) + t12) + t13) + t23)

open Classical in
/-- `eval` 52-68 for the barycentric coordinates actually used; `none` when the computed weight sum is zero -/
noncomputable def evalBaryRounded (q : QuadBez ℝ) (s u v : ℝ) : Res (P3 ℝ) :=
  let p := fun c : P3 ℝ → ℝ => sumRounded fl (fl (c q.p1 * q.w1)) (fl (c q.p2 * q.w2)) (fl (c q.p3 * q.w3)) (fl (c q.c12 * q.w12))
    (fl (c q.c13 * q.w13)) (fl (c q.c23 * q.w23)) s u v
  let w := sumRounded fl q.w1 q.w2 q.w3 q.w12 q.w13 q.w23 s u v
  if w = 0 then none else some ⟨fl (p P3.x / w), fl (p P3.y / w), fl (p P3.z / w)⟩

open Classical in
/-- `eval` 44-69 -/
noncomputable def evalRounded (q : QuadBez ℝ) (s u v : ℝ) : Res (P3 ℝ) :=
  let v := if v = -1 then fl (fl (1 - s) - u) else v
  q.evalBaryRounded fl s u v

/-- `eval(s, u)` with the default argument `v = -1`, QuadBezierTriangle.h 17 -/
noncomputable def eval2Rounded (q : QuadBez ℝ) (s u : ℝ) : Res (P3 ℝ) := q.evalRounded fl s u (-1)

/-- first pair of loops of `add_to_mesh`, 75-87; the conversions of `is`, `iu`, `iNbSegments` to `double` are exact -/
noncomputable def addVerticesRounded (q : QuadBez ℝ) (n : Int) (m : Mesh ℝ) : Res (Mesh ℝ) :=
  loopN (n + 1).toNat (fun is m =>
    let s := fl ((is : ℝ) / (n : ℝ))
    loopN (n - is + 1).toNat (fun iu m => do
      let p ← q.eval2Rounded fl s (fl ((iu : ℝ) / (n : ℝ)))
      return (m.addVertex p).1) m) m

/-- `add_to_mesh` 71-105, for `iNbSegments ≥ 1` -/
noncomputable def addToMeshRounded (q : QuadBez ℝ) (m : Mesh ℝ) (n : Int) : Res (Mesh ℝ) := do
  let iNbVertices := m.nbVertices
  let m ← q.addVerticesRounded fl n m
  let (m, _) ← addTriangles n iNbVertices m
  return m

end QuadBez

/-- `SmoothMesh::add_to_mesh` SmoothMesh.cpp 60-66 -/
noncomputable def SmoothMesh.addToMeshRounded (fl : ℝ → ℝ) (s : SmoothMesh ℝ) (m : Mesh ℝ) (n : Int) : Res (Mesh ℝ) :=
  loopN s.tris.length (fun i m => do
    let t ← s.triangle i
    t.addToMeshRounded fl m n) m

end CAD
