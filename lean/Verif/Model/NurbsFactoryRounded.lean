import Verif.Model.NurbsRounded

/-! `NurbsRevolve::revolve` and the circle, disk, sphere, torus and cylinder of
`/repo/src/NurbsFactory.cpp` in rounded arithmetic: every `+ - * /` and `sqrt(2.)` followed by
`fl`.  Negation is exact.  Not rounded, because exact in binary: the rescaling of the literal
knots by `set_knots` (they begin with 0 and end with 1: minus 0, divided by 1), the knots 0 and 1
of `set_uniform` for two points, the weights 1 of `set_equals_weights`. -/

namespace CAD
namespace Nurbs
variable (fl : ℝ → ℝ)

open Classical in
/-- `NurbsCurve::is_closed` 118-123 -/
noncomputable def Curve.isClosedRounded (c : Curve ℝ) (tol : ℝ) : Res Bool :=
  if c.points.length ≤ 1 then some false
  else do
    let p ← getI c.points 0
    let q ← getI c.points (c.points.length - 1)
    return decide (Rounded.normSq fl (Rounded.sub fl p q) < fl (tol * tol))

/-- the diagonal point `p3 + p1` of NurbsRevolve.cpp 45-46, 55-56, 65-66, 75-76; its z is set
afterwards -/
noncomputable def diagRounded (p : P3 ℝ) : P3 ℝ :=
  let s := Rounded.add fl (turn p) p
  ⟨s.x, s.y, p.z⟩

/-- the nine points of the circle of one profile point, 38-80 -/
noncomputable def circlePtsRounded (p : P3 ℝ) : List (P3 ℝ) :=
  let p3 := turn p
  let p5 := turn p3
  let p7 := turn p5
  [p, diagRounded fl p, p3, diagRounded fl p3, p5, diagRounded fl p5, p7, diagRounded fl p7, turn p7]

/-- `w / sqrt(2.)`, 48, 58, 68, 78 -/
noncomputable def overRoot2 (w : ℝ) : ℝ := fl (w / fl (Real.sqrt 2))

/-- their weights -/
noncomputable def circleWtsRounded (w : ℝ) : List ℝ :=
  [w, overRoot2 fl w, w, overRoot2 fl w, w, overRoot2 fl w, w, overRoot2 fl w, w]

/-- `NurbsRevolve::revolve` 19-94 -/
noncomputable def revolveRounded (tol : ℝ) (nc : Curve ℝ) (ns : Surface ℝ) : Res (Surface ℝ) := do
  let ns := ns.clear
  let a ← loopN nc.points.length (fun i (a : List (P3 ℝ) × List ℝ) => do
    let w ← getI nc.weights i
    let p ← getI nc.points i
    return (a.1 ++ circlePtsRounded fl p, a.2 ++ circleWtsRounded fl w)) ([], [])
  let ns := ns.clear
  let ns ← ns.setDegree 2 nc.degree
  let ns := ns.setPoints a.1 9 nc.nb
  let ns ← ns.setKnotsU knotsCircle
  let ns ← ns.setKnotsV nc.knots
  let ns := ns.setWeights a.2
  let ns := ns.setClosedU true
  let b ← nc.isClosedRounded fl tol
  return ns.setClosedV b

/-- `create_circle` 15-33 -/
noncomputable def createCircleRounded (r : ℝ) (nc : Curve ℝ) : Res (Curve ℝ) := do
  let nc := nc.clear
  let points : List (P3 ℝ) := [Rounded.scale fl r ⟨1, 0, 0⟩, Rounded.scale fl r ⟨1, 1, 0⟩, Rounded.scale fl r ⟨0, 1, 0⟩,
    Rounded.scale fl r ⟨-1, 1, 0⟩, Rounded.scale fl r ⟨-1, 0, 0⟩, Rounded.scale fl r ⟨-1, -1, 0⟩,
    Rounded.scale fl r ⟨0, -1, 0⟩, Rounded.scale fl r ⟨1, -1, 0⟩, Rounded.scale fl r ⟨1, 0, 0⟩]
  let weights := [1, overRoot2 fl 1, 1, overRoot2 fl 1, 1, overRoot2 fl 1, 1, overRoot2 fl 1, 1]
  let nc ← nc.setDegree 2
  let nc ← nc.setKnots knotsCircle
  return (nc.setWeights weights).setPoints points

/-- `create_disk` 35-53; the profile needs no arithmetic -/
noncomputable def createDiskRounded (tol r : ℝ) (ns : Surface ℝ) : Res (Surface ℝ) := do
  let ns := ns.clear
  let nc ← Curve.new.setDegree 1
  let nc ← (nc.setPoints [⟨0, 0, 0⟩, ⟨r, 0, 0⟩]).setUniform
  let nc := nc.setEqualsWeights
  revolveRounded fl tol nc ns

/-- the profile of `create_sphere` 70-84 -/
noncomputable def sphereProfileRounded (r : ℝ) : Res (Curve ℝ) := do
  let points : List (P3 ℝ) := [Rounded.scale fl r ⟨0, 0, -1⟩, Rounded.scale fl r ⟨0, 1, -1⟩, Rounded.scale fl r ⟨0, 1, 0⟩,
    Rounded.scale fl r ⟨0, 1, 1⟩, Rounded.scale fl r ⟨0, 0, 1⟩]
  let nc ← Curve.new.setDegree 2
  let nc := (nc.setPoints points).setWeights [1, overRoot2 fl 1, 1, overRoot2 fl 1, 1]
  nc.setKnots knotsHalf

/-- `create_sphere` (surface) 65-94 -/
noncomputable def createSphereRounded (tol r : ℝ) (ns : Surface ℝ) : Res (Surface ℝ) := do
  let ns := ns.clear
  let nc ← sphereProfileRounded fl r
  let ns ← revolveRounded fl tol nc ns
  return ns.mapPoints mirrorY

/-- `create_torus` (surface) 96-117 -/
noncomputable def createTorusRounded (tol major minor : ℝ) (ns : Surface ℝ) : Res (Surface ℝ) := do
  let ns := ns.clear
  let nc ← createCircleRounded fl minor Curve.new
  let nc := nc.mapPoints fun p => ⟨fl (p.x + major), -p.z, p.y⟩
  revolveRounded fl tol nc ns

/-- `create_cylinder` 119-156: the three surfaces of the solid -/
noncomputable def createCylinderRounded (tol r h : ℝ) : Res (Solid ℝ) := do
  let s1 ← createDiskRounded fl tol r Surface.new
  let s1 := s1.mapPoints fun p => ⟨p.x, -p.y, fl (p.z - fl (h / 2))⟩
  let s3 ← createDiskRounded fl tol r Surface.new
  let s3 := s3.mapPoints fun p => ⟨p.x, p.y, fl (p.z + fl (h / 2))⟩
  let nc ← createCurveFromPoints [⟨r, 0, fl (-h / 2)⟩, ⟨r, 0, fl (h / 2)⟩] 1 Curve.new
  let s2 ← revolveRounded fl tol nc Surface.new
  let s2 := s2.mapPoints mirrorY
  return Solid.add (Solid.add (Solid.add [] s1) s2) s3

/-- `create_torus` (solid) 158-170 -/
noncomputable def createTorusSolidRounded (tol major minor : ℝ) : Res (Solid ℝ) := do
  let ns ← createTorusRounded fl tol major minor Surface.new
  return Solid.add [] (ns.mapPoints mirrorY)

/-- `create_sphere` (solid) 172-178 -/
noncomputable def createSphereSolidRounded (tol r : ℝ) : Res (Solid ℝ) := do
  let ns ← createSphereRounded fl tol r Surface.new
  return Solid.add [] ns

end Nurbs
end CAD
