import Verif.Model.Mesh

/-! Model of `/repo/src/MeshTessellate.cpp`. -/

namespace CAD
namespace Tessellate
variable {K : Type} [Field K]

/-- `interpolate` 50-56.  Dividing by `maxStep = 0` is outside the model's range:
`compute` only calls it inside a loop `stripe < iNbSegments`, so `maxStep ≥ 1`. -/
def interpolate (a b c : P3 K) (uStep vStep maxStep : Int) : P3 K :=
  let tu := (uStep : K) / (maxStep : K)
  let tv := (vStep : K) / (maxStep : K)
  a + tu • (b - a) + tv • (c - a)

section
variable (I : P3 K → P3 K → P3 K → Int → Int → Int → P3 K)

/-- one pass of the inner loop of `compute`, 37-45, with the function that computes the
points left open (`I` is `interpolate` in exact or in rounded arithmetic) -/
def stripeQuad (a b c : P3 K) (n : Int) (stripe j : Int) (out : Mesh K) : Res (Mesh K) := do
  let p1 := I a b c (stripe - j) j n
  let p2 := I a b c (stripe - j) (j + 1) n
  let p3 := I a b c (stripe - j - 1) (j + 1) n
  let p4 := I a b c (stripe - j - 1) (j + 2) n
  let (out, _) ← out.addTrianglePts p1 p2 p3
  let (out, _) ← out.addTrianglePts p3 p2 p4
  return out

/-- one pass of the middle loop of `compute`, 28-46 -/
def stripe (a b c : P3 K) (n : Int) (s : Nat) (out : Mesh K) : Res (Mesh K) := do
  let p1 := I a b c s 0 n
  let p2 := I a b c (s + 1) 0 n
  let p3 := I a b c s 1 n
  let (out, _) ← out.addTrianglePts p1 p2 p3
  loopN s (fun j out => stripeQuad I a b c n s j out) out

/-- `compute` 10-48 for `meshIn` and `meshOut` different objects, with the function that
computes the points left open -/
def computeBy (meshIn : Mesh K) (iNbSegments : Int) (meshOut : Mesh K) : Res (Mesh K) :=
  let out := meshOut.clear
  loopN meshIn.nbTriangles.toNat (fun iTriangle out => do
    let u ← meshIn.isTriangleUnlinked iTriangle
    if u then return out
    let (iA, iB, iC) ← meshIn.getTriangleVertices iTriangle
    let a ← meshIn.getVertex iA
    let b ← meshIn.getVertex iB
    let c ← meshIn.getVertex iC
    loopN iNbSegments.toNat (stripe I a b c iNbSegments) out) out

end

/-- `compute` 10-48 for `meshIn` and `meshOut` different objects -/
def compute (meshIn : Mesh K) (iNbSegments : Int) (meshOut : Mesh K) : Res (Mesh K) :=
  computeBy interpolate meshIn iNbSegments meshOut

/-- `compute` 10-48 for `compute(m, n, m)`: `clear` also empties the input, whose
`nb_triangles()` is then 0 before the first test of the loop. -/
def computeSelf (fuel : Nat) (m : Mesh K) (iNbSegments : Int) : LoopOut (Mesh K) :=
  loopFuel Mesh.nbTriangles (fun iTriangle m => do
    let u ← m.isTriangleUnlinked iTriangle
    if u then return m
    let (iA, iB, iC) ← m.getTriangleVertices iTriangle
    let a ← m.getVertex iA
    let b ← m.getVertex iB
    let c ← m.getVertex iC
    loopN iNbSegments.toNat (stripe interpolate a b c iNbSegments) m) fuel 0 m.clear

end Tessellate
end CAD
