import Verif.Model.Mesh

/-! Model of `/repo/src/MeshMeasurements.cpp`. -/

namespace CAD

/-- `for (int i = 0; i < n; i++) { … if (…) return r; … }` followed by
`return dflt;`: the body answers `some (some r)` to return `r`, `some none` to go
on. -/
def loopRet {β : Type} (n : Nat) (body : Nat → Res (Option β)) (dflt : β) : Res β :=
  let rec go : List Nat → Res β
    | [] => some dflt
    | i :: is => do
      match ← body i with
      | some r => return r
      | none => go is
  go (List.range n)

namespace Measure
variable {K : Type}

/-- `for (int i = 0; i < m.nb_triangles(); i++) { if (m.is_triangle_unlinked(i))
continue; Triangle3 t; m.get_triangle(i, t); … }` with a body that changes a number, the loop of
`volume` 86-94 and `surface` 104-112 -/
def foldLinked {A : Type} (m : Mesh K) (step : A → Tri3 K → Res A) (init : A) : Res A :=
  loopN m.nbTriangles.toNat (fun i acc => do
    let u ← m.isTriangleUnlinked i
    if u then return acc
    let t ← m.getTriangle i
    step acc t) init

/-- the loop with the body `acc += g(t);` -/
def sumLinked {A : Type} [Zero A] [Add A] (m : Mesh K) (g : Tri3 K → A) : Res A :=
  foldLinked m (fun acc t => some (acc + g t)) 0

/-- `volume` 81-97 -/
def volume [Field K] (m : Mesh K) : Res K := do
  let v ← sumLinked m fun t => t.p1.dot t.orthogonal
  return v / 6

/-- `surface` 99-115 -/
noncomputable def surface (m : Mesh ℝ) : Res ℝ := sumLinked m fun t => t.surface

open Classical in
/-- `has_no_degenerated_triangles` 14-29 -/
noncomputable def hasNoDegeneratedTriangles (m : Mesh ℝ) : Res Bool :=
  loopRet m.nbTriangles.toNat (fun i => do
    let u ← m.isTriangleUnlinked i
    if u then return none
    let t ← m.getTriangle i
    if t.surface = 0 then return some false
    return none) true

/-- `is_closed` 31-45 -/
def isClosed (m : Mesh K) : Res Bool :=
  loopRet m.nbTriangles.toNat (fun i => do
    let u ← m.isTriangleUnlinked i
    if u then return none
    let (t1, t2, t3) ← m.getNearTriangles i
    if t1 = -1 ∨ t2 = -1 ∨ t3 = -1 then return some false
    return none) true

/-- `is_oriented_outside` 47-50 -/
def isOrientedOutside [Field K] [LinearOrder K] (m : Mesh K) : Res Bool := do
  let v ← volume m
  return decide (v ≥ 0)

/-- `has_no_self_intersections` 8-12 and the stubs 117-129, which all return true -/
def hasNoSelfIntersections (_m : Mesh K) : Bool := true
/-- 117-120 -/
def hasNoIsolatedVertices (_m : Mesh K) : Bool := true
/-- 121-124 -/
def hasNoDuplicatedVertices (_m : Mesh K) : Bool := true
/-- 126-129 -/
def hasNoShortEdges (_m : Mesh K) : Bool := true

/-- `is_clean` 52-79 -/
noncomputable def isClean (m : Mesh ℝ) : Res Bool := do
  if (← hasNoDegeneratedTriangles m) = false then return false
  if (← isOrientedOutside m) = false then return false
  if (← isClosed m) = false then return false
  if hasNoSelfIntersections m = false then return false
  if hasNoIsolatedVertices m = false then return false
  if hasNoDuplicatedVertices m = false then return false
  if hasNoShortEdges m = false then return false
  if hasNoSelfIntersections m = false then return false
  return true

end Measure
end CAD
