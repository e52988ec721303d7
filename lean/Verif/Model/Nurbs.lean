import Verif.Model.Mesh

/-! Model of `/repo/src/NurbsCurve.cpp` and `/repo/src/NurbsSurface.cpp`.

The scratch vectors `_tempPoints…`, which are `mutable` and survive from one call
of `evaluate` to the next, are part of the state.  A division by zero (inf or NaN
in the C++) is the outcome `none`, as are failed asserts and accesses outside a
vector. -/

namespace CAD

/-- `v.resize(n, a)`; a negative `n` converts to a huge size and throws -/
def resize {α : Type} (l : List α) (n : Int) (a : α) : Res (List α) :=
  if n < 0 then none else some (l.take n.toNat ++ List.replicate (n.toNat - l.length) a)

/-- `a / b` -/
def divR {K : Type} [Field K] [DecidableEq K] (a b : K) : Res K := if b = 0 then none else some (a / b)

/-- `p / b` on a point -/
def divP {K : Type} [Field K] [DecidableEq K] (p : P3 K) (b : K) : Res (P3 K) :=
  if b = 0 then none else some (p.div b)

namespace Nurbs
section
variable {K : Type} [Field K] [LinearOrder K]

/-- `scale_knots` NurbsCurve.cpp 44-59 (the same text in NurbsSurface.cpp 109-124) -/
def scaleKnots (knots : List K) : Res (List K) := do
  let k0 ← getI knots 0
  let dMin := knots.foldl min k0
  let dMax := knots.foldl max k0
  knots.mapM fun k => divR (k - dMin) (dMax - dMin)

/-- `set_uniform` NurbsCurve.cpp 61-75 before the call of `set_knots` (the same text
in NurbsSurface.cpp 60-76 and 84-98) -/
def uniformKnots (degree nbPoints : Int) : List K :=
  List.replicate (degree + 1).toNat 0 ++
    ((List.range (nbPoints - degree - 1).toNat).map fun (i : Nat) => ((i + 1 : Nat) : K)) ++
    List.replicate (degree + 1).toNat ((nbPoints - degree : Int) : K)

/-- `find_knot_span` NurbsCurve.cpp 125-151 (the same text in NurbsSurface.cpp
207-234).  `i` and `i + 1` stay inside the vector. -/
def findKnotSpan (knots : List K) (t : K) : Int :=
  if knots.length < 2 then 0
  else
    let t := if t < 0 then 0 else t
    let t := if 1 < t then 1 else t
    match (List.range (knots.length - 1)).find? (fun i =>
      if t < 1 then decide (knots.getD i 0 ≤ t ∧ t < knots.getD (i + 1) 0)
      else decide (knots.getD i 0 < t ∧ t ≤ knots.getD (i + 1) 0)) with
    | some i => i
    | none => -1

/-- The arithmetic of `evaluate`: the quotient `alpha` of lines 255, the product of a point
and a weight of line 249, the two linear interpolations of lines 256-257, and the division of
line 260.  `exactOps` computes with exact numbers; `Model/NurbsRounded` rounds every
operation. -/
structure EvalOps (K : Type) where
  alpha : K → K → K → Res K
  weigh : K → P3 K → P3 K
  blendP : K → P3 K → P3 K → P3 K
  blendW : K → K → K → K
  divide : P3 K → K → Res (P3 K)

/-- `(u - a) / (b - a)`, `p * w`, `p0 * (1. - alpha) + p1 * alpha`, `p / w`, NurbsCurve.cpp
249-260 (the same text in NurbsSurface.cpp 414-438) -/
def exactOps : EvalOps K where
  alpha u a b := divR (u - a) (b - a)
  weigh w p := w • p
  blendP alpha p0 p1 := (1 - alpha) • p0 + alpha • p1
  blendW alpha w0 w1 := w0 * (1 - alpha) + w1 * alpha
  divide p w := divP p w

/-- the two nested loops of `evaluate`, NurbsCurve.cpp 252-258 (the same text in
NurbsSurface.cpp 417-423 and 430-436); the state is the two scratch vectors -/
def deBoorLoopsBy (o : EvalOps K) (knots : List K) (degree knotIndex : Int) (u : K) (s : List (P3 K) × List K) :
    Res (List (P3 K) × List K) :=
  loopN degree.toNat (fun r0 s =>
    let r : Int := r0 + 1
    loopN (degree - r0).toNat (fun j0 (s : List (P3 K) × List K) => do
      let j : Int := degree - j0
      let a ← getI knots (j + knotIndex - degree)
      let b ← getI knots (j + 1 + knotIndex - r)
      let alpha ← o.alpha u a b
      let p0 ← getI s.1 (j - 1)
      let p1 ← getI s.1 j
      let tp ← setI s.1 j (o.blendP alpha p0 p1)
      let w0 ← getI s.2 (j - 1)
      let w1 ← getI s.2 j
      let tw ← setI s.2 j (o.blendW alpha w0 w1)
      return (tp, tw)) s) s

end

/-- `class NurbsCurve` -/
structure Curve (K : Type) where
  degree : Int
  knots : List K
  weights : List K
  points : List (P3 K)
  nbPoints : Int
  tempPoints : List (P3 K)
  tempWeights : List K
deriving DecidableEq

namespace Curve
variable {K : Type} [Field K]

/-- constructor 8-11 -/
def new : Curve K := ⟨0, [], [], [], 0, [], []⟩

/-- `clear` 17-24; the scratch vectors are not cleared -/
def clear (c : Curve K) : Curve K :=
  { c with degree := 0, knots := [], weights := [], points := [], nbPoints := 0 }

/-- `set_degree` 26-31 -/
def setDegree (c : Curve K) (degree : Int) : Res (Curve K) := do
  let tp ← resize c.tempPoints (degree + 1) ⟨0, 0, 0⟩
  let tw ← resize c.tempWeights (degree + 1) 0
  return { c with degree := degree, tempPoints := tp, tempWeights := tw }

/-- `set_weights` 82-85 -/
def setWeights (c : Curve K) (w : List K) : Curve K := { c with weights := w }

/-- `set_equals_weights` 92-95; `_iNbPoints` is never negative -/
def setEqualsWeights (c : Curve K) : Curve K := { c with weights := List.replicate c.nbPoints.toNat 1 }

/-- `set_points` 97-101 -/
def setPoints (c : Curve K) (ps : List (P3 K)) : Curve K :=
  { c with points := ps, nbPoints := ps.length }

/-- `nb_points` 103-106 -/
def nb (c : Curve K) : Int := c.points.length

/-- every point changed in place through `points()`, 113-116 -/
def mapPoints (c : Curve K) (f : P3 K → P3 K) : Curve K := { c with points := c.points.map f }

variable [LinearOrder K]

/-- `set_knots` 38-42 -/
def setKnots (c : Curve K) (knots : List K) : Res (Curve K) := do
  let k ← scaleKnots knots
  return { c with knots := k }

/-- `set_uniform` 61-75 -/
def setUniform (c : Curve K) : Res (Curve K) := c.setKnots (uniformKnots c.degree c.nbPoints)

/-- `is_closed` 118-123 -/
def isClosed (c : Curve K) (dTol : K) : Res Bool := do
  if c.points.length ≤ 1 then return false
  let a ← getI c.points 0
  let b ← getI c.points (c.points.length - 1)
  return decide ((a - b).normSq < dTol * dTol)

/-- `evaluate` 233-261: the curve with its new scratch vectors, and the point -/
def evaluateBy (o : EvalOps K) (c : Curve K) (u : K) : Res (Curve K × P3 K) := do
  assert (c.nbPoints = c.weights.length)
  assert (c.nbPoints = c.knots.length - c.degree - 1)
  let knotIndex := findKnotSpan c.knots u
  let s ← loopN (c.degree + 1).toNat (fun j (s : List (P3 K) × List K) => do
    let idx := j + knotIndex - c.degree
    assert (0 ≤ idx)
    assert (idx < c.nbPoints)
    let w ← getI c.weights idx
    let tw ← setI s.2 j w
    let p ← getI c.points idx
    let tp ← setI s.1 j (o.weigh w p)
    return (tp, tw)) (c.tempPoints, c.tempWeights)
  let s ← deBoorLoopsBy o c.knots c.degree knotIndex u s
  let p ← getI s.1 c.degree
  let w ← getI s.2 c.degree
  let q ← o.divide p w
  return ({ c with tempPoints := s.1, tempWeights := s.2 }, q)

/-- `evaluate` 233-261 with exact numbers -/
def evaluate (c : Curve K) (u : K) : Res (Curve K × P3 K) := c.evaluateBy exactOps u

/-- `insert_knot` 192-231 -/
def insertKnot (c : Curve K) (u : K) : Res (Curve K) := do
  let indexU := findKnotSpan c.knots u
  let s ← loopN (c.points.length + 1) (fun i (s : List (P3 K) × List K) => do
    if (i : Int) ≤ indexU - c.degree then
      let p ← getI c.points i
      let w ← getI c.weights i
      return (s.1 ++ [w • p], s.2 ++ [w])
    else if indexU + 1 ≤ (i : Int) then
      let p ← getI c.points (i - 1)
      let w ← getI c.weights (i - 1)
      return (s.1 ++ [w • p], s.2 ++ [w])
    else
      let a ← getI c.knots i
      let b ← getI c.knots (i + c.degree)
      let dAlpha ← divR (u - a) (b - a)
      let p1 ← getI c.points i
      let w1 ← getI c.weights i
      let p0 ← getI c.points (i - 1)
      let w0 ← getI c.weights (i - 1)
      return (s.1 ++ [dAlpha • (w1 • p1) + (1 - dAlpha) • (w0 • p0)],
        s.2 ++ [w1 * dAlpha + w0 * (1 - dAlpha)])) ([], [])
  let p ← (s.1.zip s.2).mapM fun x => divP x.1 x.2
  let k := c.knots.take (indexU + 1).toNat ++ u :: c.knots.drop (indexU + 1).toNat
  let c ← c.setKnots k
  return (c.setWeights s.2).setPoints p

/-- state of the loop of `degree_elevation` 290-301: `elevatedKnots`,
`knotMultiplicity` (a vector of doubles holding integers), `l` -/
structure Elev (K : Type) where
  knots : List K
  mult : List Int
  l : Int

/-- `degree_elevation` 289-304 -/
def elevateKnots (knots : List K) : Res (List K × List Int) := do
  let s ← loopN (knots.length - 1) (fun k (s : Elev K) => do
    let a ← getI knots k
    let b ← getI knots (k + 1)
    if a ≠ b then return ⟨s.knots ++ [a, a], s.mult ++ [s.l], 0 + 1⟩
    else return ⟨s.knots ++ [a], s.mult, s.l + 1⟩) ⟨[], [], 1⟩
  let last ← getI knots (knots.length - 1)
  return (s.knots ++ [last, last], s.mult ++ [s.l])

/-- homogeneous control point `_points[i] * _weights[i]`, with its weight -/
def homog (c : Curve K) (i : Int) : Res (P3 K × K) := do
  let p ← getI c.points i
  let w ← getI c.weights i
  return (w • p, w)

/-- `degree_elevation` 309-321 -/
def elevate1 (c : Curve K) : Res (List (P3 K × K)) := do
  let l ← loopN (c.nbPoints - 1).toNat (fun i (l : List (P3 K × K)) => do
    let a ← c.homog i
    let b ← c.homog (i + 1)
    return l ++ [a, ((a.1 + b.1).div 2, (a.2 + b.2) / 2)]) []
  let z ← c.homog (c.nbPoints - 1)
  return l ++ [z]

/-- `degree_elevation` 339-343 (`b1 = 1/3`, `b2 = 2/3`) -/
def elevFirst (c : Curve K) (k m0 : Int) (q : List (P3 K × K)) : Res (List (P3 K × K)) :=
  if 1 < m0 then do
    let x ← c.homog (k - 1)
    let y ← c.homog (k - 2)
    return q ++ [((2 / 3 : K) • x.1 + (1 / 3 : K) • y.1, x.2 * (2 / 3) + y.2 * (1 / 3))]
  else some q

/-- `degree_elevation` 344-361 -/
def elevSecond (c : Curve K) (k m1 : Int) (q : List (P3 K × K)) : Res (List (P3 K × K)) := do
  let x ← c.homog k
  let y ← c.homog (k - 1)
  if 1 < m1 then
    return q ++ [((1 / 3 : K) • x.1 + (2 / 3 : K) • y.1, x.2 * (1 / 3) + y.2 * (2 / 3)), x]
  else
    let t1 ← getI c.knots (k + 1)
    let t0 ← getI c.knots k
    let t2 ← getI c.knots (k + 2)
    let B ← divR (t1 - t0) (3 * (t2 - t0))
    return q ++ [(B • x.1 + (1 - B) • y.1, x.2 * B + y.2 * (1 - B)),
      ((B + 2 / 3) • x.1 + (1 / 3 - B) • y.1, x.2 * (B + 2 / 3) + y.2 * (1 / 3 - B))]

/-- `degree_elevation` 338-363, one iteration; `l` runs from 1, `l0` from 0; the
state is the new points and `k` -/
def elevBody (c : Curve K) (mult : List Int) (l0 : Nat) (s : List (P3 K × K) × Int) :
    Res (List (P3 K × K) × Int) := do
  let l : Int := l0 + 1
  let m0 ← getI mult (l - 1)
  let q ← c.elevFirst s.2 m0 s.1
  let m1 ← getI mult l
  let q ← c.elevSecond s.2 m1 q
  return (q, s.2 + m1)

/-- `degree_elevation` 322-367 -/
def elevate2 (c : Curve K) (mult : List Int) : Res (List (P3 K × K)) := do
  let z ← c.homog 0
  let s ← loopN (mult.length - 1) (c.elevBody mult) ([z], 2)
  return s.1

/-- `degree_elevation` 279-378: the curve and the returned flag -/
def degreeElevation (c : Curve K) : Res (Curve K × Bool) := do
  if 3 ≤ c.degree then return (c, false)
  let e ← elevateKnots c.knots
  let q ← if c.degree = 1 then c.elevate1
    else if c.degree = 2 then c.elevate2 e.2
    else pure []
  let p ← q.mapM fun x => divP x.1 x.2
  let c' ← c.setKnots e.1
  let c' := (c'.setPoints p).setWeights (q.map Prod.snd)
  let c' ← c'.setDegree (c.degree + 1)
  return (c', true)

end Curve
end Nurbs
end CAD
