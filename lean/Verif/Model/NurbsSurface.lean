import Verif.Model.Nurbs

/-! Model of `/repo/src/NurbsSurface.cpp` and of the builders `NurbsExtrude.cpp`,
`NurbsRuled.cpp`, `NurbsRevolve.cpp`.  The same conventions as in `Model/Nurbs`. -/

namespace CAD
namespace Nurbs

/-- `class NurbsSurface` -/
structure Surface (K : Type) where
  degreeU : Int
  degreeV : Int
  nbU : Int
  nbV : Int
  closedU : Bool
  closedV : Bool
  knotsU : List K
  knotsV : List K
  weights : List K
  points : List (P3 K)
  tempPointsU : List (P3 K)
  tempPointsV : List (P3 K)
  tempWeightsU : List K
  tempWeightsV : List K
deriving DecidableEq

namespace Surface
variable {K : Type} [Field K]

/-- constructor 12-15 -/
def new : Surface K := ⟨0, 0, 0, 0, false, false, [], [], [], [], [], [], [], []⟩

/-- `clear` 21-31: neither the closed flags nor the scratch vectors -/
def clear (s : Surface K) : Surface K :=
  { s with degreeU := 0, degreeV := 0, knotsU := [], knotsV := [], weights := [], points := [], nbU := 0, nbV := 0 }

/-- `set_degree` 33-42 -/
def setDegree (s : Surface K) (du dv : Int) : Res (Surface K) := do
  let pu ← resize s.tempPointsU (du + 1) ⟨0, 0, 0⟩
  let pv ← resize s.tempPointsV (dv + 1) ⟨0, 0, 0⟩
  let wu ← resize s.tempWeightsU (du + 1) 0
  let wv ← resize s.tempWeightsV (dv + 1) 0
  return ⟨du, dv, s.nbU, s.nbV, s.closedU, s.closedV, s.knotsU, s.knotsV, s.weights, s.points, pu, pv, wu, wv⟩

/-- `set_weights` 126-129 -/
def setWeights (s : Surface K) (w : List K) : Surface K := { s with weights := w }

/-- `set_equals_weights` 131-134: `resize` keeps the weights that are there -/
def setEqualsWeights (s : Surface K) : Res (Surface K) := do
  let w ← resize s.weights s.points.length 1
  return { s with weights := w }

/-- `set_points` 146-151 -/
def setPoints (s : Surface K) (ps : List (P3 K)) (nu nv : Int) : Surface K :=
  { s with points := ps, nbU := nu, nbV := nv }

/-- `apply_transform` 163-171, and every point changed in place through `points()`
202-205 -/
def mapPoints (s : Surface K) (f : P3 K → P3 K) : Surface K := { s with points := s.points.map f }

/-- `set_closed_u` 177-180 -/
def setClosedU (s : Surface K) (b : Bool) : Surface K := { s with closedU := b }

/-- `set_closed_v` 182-185 -/
def setClosedV (s : Surface K) (b : Bool) : Surface K := { s with closedV := b }

variable [LinearOrder K]

/-- `set_knots_u` 54-58 -/
def setKnotsU (s : Surface K) (knots : List K) : Res (Surface K) := do
  let k ← scaleKnots knots
  return { s with knotsU := k }

/-- `set_knots_v` 78-82 -/
def setKnotsV (s : Surface K) (knots : List K) : Res (Surface K) := do
  let k ← scaleKnots knots
  return { s with knotsV := k }

/-- `set_uniform_u` 60-76 -/
def setUniformU (s : Surface K) : Res (Surface K) := s.setKnotsU (uniformKnots s.degreeU s.nbU)

/-- `set_uniform_v` 84-98 -/
def setUniformV (s : Surface K) : Res (Surface K) := s.setKnotsV (uniformKnots s.degreeV s.nbV)

/-- the inner loop of `create_u_curves` 300-304 and `create_v_curves` 324-328: `n`
points and weights at the indices `f 0`, `f 1`, … -/
def gather (s : Surface K) (n : Nat) (f : Nat → Int) : Res (List (P3 K) × List K) :=
  loopN n (fun i (a : List (P3 K) × List K) => do
    let p ← getI s.points (f i)
    let w ← getI s.weights (f i)
    return (a.1 ++ [p], a.2 ++ [w])) ([], [])

/-- one curve of `create_u_curves` 294-307 -/
def uCurve (s : Surface K) (v : Nat) : Res (Curve K) := do
  let c ← Curve.new.setDegree s.degreeU
  let c ← c.setKnots s.knotsU
  let a ← s.gather s.nbU.toNat fun u => u + s.nbU * v
  return (c.setPoints a.1).setWeights a.2

/-- `create_u_curves` 288-310 -/
def createUCurves (s : Surface K) : Res (List (Curve K)) :=
  loopN s.nbV.toNat (fun v l => do
    let c ← s.uCurve v
    return l ++ [c]) []

/-- one curve of `create_v_curves` 318-331 -/
def vCurve (s : Surface K) (u : Nat) : Res (Curve K) := do
  let c ← Curve.new.setDegree s.degreeV
  let c ← c.setKnots s.knotsV
  let a ← s.gather s.nbV.toNat fun v => u + s.nbU * v
  return (c.setPoints a.1).setWeights a.2

/-- `create_v_curves` 312-334 -/
def createVCurves (s : Surface K) : Res (List (Curve K)) :=
  loopN s.nbU.toNat (fun u l => do
    let c ← s.vCurve u
    return l ++ [c]) []

/-- `from_u_curves` 336-355 -/
def fromUCurves (s : Surface K) (vu : List (Curve K)) : Res (Surface K) :=
  match vu with
  | [] => some s
  | c0 :: _ => do
    let s ← s.setKnotsU c0.knots
    let s := s.setPoints (vu.flatMap Curve.points) c0.nb s.nbV
    let s := s.setWeights (vu.flatMap Curve.weights)
    s.setDegree c0.degree s.degreeV

/-- the nested loops of `from_v_curves` 369-378 -/
def scatter (vv : List (Curve K)) (nu nv : Int) (a : List (P3 K) × List K) : Res (List (P3 K) × List K) :=
  loopN nu.toNat (fun u a => do
    let c ← getI vv u
    loopN nv.toNat (fun v (a : List (P3 K) × List K) => do
      let p ← getI c.points v
      let ps ← setI a.1 (u + v * nu) p
      let w ← getI c.weights v
      let ws ← setI a.2 (u + v * nu) w
      return (ps, ws)) a) a

/-- `from_v_curves` 357-382 -/
def fromVCurves (s : Surface K) (vv : List (Curve K)) : Res (Surface K) :=
  match vv with
  | [] => some s
  | c0 :: _ => do
    let s ← s.setKnotsV c0.knots
    let nv := c0.nb
    let ps ← resize ([] : List (P3 K)) (s.nbU * nv) ⟨0, 0, 0⟩
    let ws ← resize ([] : List K) (s.nbU * nv) 0
    let a ← scatter vv s.nbU nv (ps, ws)
    let s := s.setPoints a.1 s.nbU nv
    let s := s.setWeights a.2
    s.setDegree s.degreeU c0.degree

/-- `insert_knot_u` 236-245 -/
def insertKnotU (s : Surface K) (u : K) : Res (Surface K) := do
  let vu ← s.createUCurves
  let vu ← vu.mapM fun c => c.insertKnot u
  s.fromUCurves vu

/-- `insert_knot_v` 247-256 -/
def insertKnotV (s : Surface K) (v : K) : Res (Surface K) := do
  let vv ← s.createVCurves
  let vv ← vv.mapM fun c => c.insertKnot v
  s.fromVCurves vv

/-- `degree_elevation_u` 258-271 -/
def degreeElevationU (s : Surface K) : Res (Surface K × Bool) := do
  if 3 ≤ s.degreeU then return (s, false)
  let vu ← s.createUCurves
  let vu ← vu.mapM fun c => c.degreeElevation
  let s ← s.fromUCurves (vu.map Prod.fst)
  return (s, true)

/-- `degree_elevation_v` 273-286 -/
def degreeElevationV (s : Surface K) : Res (Surface K × Bool) := do
  if 3 ≤ s.degreeV then return (s, false)
  let vv ← s.createVCurves
  let vv ← vv.mapM fun c => c.degreeElevation
  let s ← s.fromVCurves (vv.map Prod.fst)
  return (s, true)

/-- the loop of `evaluate` 406-415: one row of homogeneous points into the scratch
vectors -/
def fillRow (o : EvalOps K) (s : Surface K) (kU idxV : Int) (t : List (P3 K) × List K) : Res (List (P3 K) × List K) :=
  loopN (s.degreeU + 1).toNat (fun ui (t : List (P3 K) × List K) => do
    let idxU := ui + kU - s.degreeU
    assert (0 ≤ idxU)
    assert (idxU < s.nbU)
    let w ← getI s.weights (idxU + s.nbU * idxV)
    let tw ← setI t.2 ui w
    let p ← getI s.points (idxU + s.nbU * idxV)
    let tp ← setI t.1 ui (o.weigh w p)
    return (tp, tw)) t

/-- the body of the loop of `evaluate` 399-427 over `vi`; the state is the scratch
vectors for `u` and for `v` -/
def evalRow (o : EvalOps K) (s : Surface K) (kU kV : Int) (u : K) (vi : Nat)
    (t : (List (P3 K) × List K) × (List (P3 K) × List K)) :
    Res ((List (P3 K) × List K) × (List (P3 K) × List K)) := do
  let idxV := vi + kV - s.degreeV
  assert (0 ≤ idxV)
  assert (idxV < s.nbV)
  let tu ← s.fillRow o kU idxV t.1
  let tu ← deBoorLoopsBy o s.knotsU s.degreeU kU u tu
  let p ← getI tu.1 s.degreeU
  let pv ← setI t.2.1 vi p
  let w ← getI tu.2 s.degreeU
  let wv ← setI t.2.2 vi w
  return (tu, (pv, wv))

/-- `evaluate` 384-439: the surface with its new scratch vectors, and the point -/
def evaluateBy (o : EvalOps K) (s : Surface K) (u v : K) : Res (Surface K × P3 K) := do
  assert (s.points.length = s.weights.length)
  let kU := findKnotSpan s.knotsU u
  let kV := findKnotSpan s.knotsV v
  assert (s.nbU = s.knotsU.length - s.degreeU - 1)
  assert (s.nbV = s.knotsV.length - s.degreeV - 1)
  assert (s.nbU * s.nbV = s.points.length)
  let t ← loopN (s.degreeV + 1).toNat (s.evalRow o kU kV u)
    ((s.tempPointsU, s.tempWeightsU), (s.tempPointsV, s.tempWeightsV))
  let tv ← deBoorLoopsBy o s.knotsV s.degreeV kV v t.2
  let p ← getI tv.1 s.degreeV
  let w ← getI tv.2 s.degreeV
  let q ← o.divide p w
  return ({ s with tempPointsU := t.1.1, tempWeightsU := t.1.2, tempPointsV := tv.1, tempWeightsV := tv.2 }, q)

/-- `evaluate` 384-439 with exact numbers -/
def evaluate (s : Surface K) (u v : K) : Res (Surface K × P3 K) := s.evaluateBy exactOps u v

end Surface

section builders
variable {K : Type} [Field K] [LinearOrder K]

/-- the literal `{ 0., 0., 1., 1. }` of NurbsExtrude.cpp 37 and NurbsRuled.cpp 34 -/
def knots01 : List K := [0, 0, 1, 1]

/-- `NurbsExtrude::extrude` 17-50; `tol` is the default tolerance of `is_closed`.  For
fewer weights than points the C++ loop 28 reads the weights it appends; the model
gives up there (`none`). -/
def extrude (tol : K) (nc : Curve K) (dir : P3 K) (ns : Surface K) : Res (Surface K) := do
  let ns := ns.clear
  assert (nc.points.length ≤ nc.weights.length)
  let weights := nc.weights ++ nc.weights.take nc.points.length
  let points := nc.points ++ nc.points.map (· + dir)
  let ns ← ns.setDegree nc.degree 1
  let ns ← ns.setKnotsU nc.knots
  let ns ← ns.setKnotsV knots01
  let ns := ns.setWeights weights
  let ns := ns.setPoints points nc.points.length 2
  let b ← nc.isClosed tol
  return ns.setClosedU b

/-- `NurbsRuled::create_ruled` 17-47 -/
def createRuled (tol : K) (nc1 nc2 : Curve K) (ns : Surface K) : Res (Surface K) := do
  let ns := ns.clear
  let ns ← ns.setDegree nc1.degree 1
  let ns ← ns.setKnotsU nc1.knots
  let ns ← ns.setKnotsV knots01
  let ns := ns.setWeights (nc1.weights ++ nc2.weights)
  let ns := ns.setPoints (nc1.points ++ nc2.points) nc1.points.length 2
  let b1 ← nc1.isClosed tol
  let b2 ← nc2.isClosed tol
  return ns.setClosedU (b1 && b2)

/-- quarter turn of NurbsRevolve.cpp 42-44, 52-54, 62-64, 72-74 -/
def turn (p : P3 K) : P3 K := ⟨p.y, -p.x, p.z⟩

/-- the diagonal point between `p` and its quarter turn, 45-46, 55-56, 65-66, 75-76 -/
def diag (p : P3 K) : P3 K := ⟨(turn p + p).x, (turn p + p).y, p.z⟩

/-- the nine points of the circle of one profile point, 38-80 -/
def circlePts (p : P3 K) : List (P3 K) :=
  let p3 := turn p
  let p5 := turn p3
  let p7 := turn p5
  [p, diag p, p3, diag p3, p5, diag p5, p7, diag p7, turn p7]

/-- their weights, `r2` being `sqrt(2.)` -/
def circleWts (r2 w : K) : List K :=
  [w, w / r2, w, w / r2, w, w / r2, w, w / r2, w]

/-- the literal knots of NurbsRevolve.cpp 86 and NurbsFactory.cpp 21 -/
def knotsCircle : List K := [0, 0, 0, 1 / 4, 1 / 4, 1 / 2, 1 / 2, 3 / 4, 3 / 4, 1, 1, 1]

/-- `NurbsRevolve::revolve` 19-94 -/
def revolve (tol r2 : K) (nc : Curve K) (ns : Surface K) : Res (Surface K) := do
  let ns := ns.clear
  let a ← loopN nc.points.length (fun i (a : List (P3 K) × List K) => do
    let w ← getI nc.weights i
    let p ← getI nc.points i
    return (a.1 ++ circlePts p, a.2 ++ circleWts r2 w)) ([], [])
  let ns := ns.clear
  let ns ← ns.setDegree 2 nc.degree
  let ns := ns.setPoints a.1 9 nc.nb
  let ns ← ns.setKnotsU knotsCircle
  let ns ← ns.setKnotsV nc.knots
  let ns := ns.setWeights a.2
  let ns := ns.setClosedU true
  let b ← nc.isClosed tol
  return ns.setClosedV b

end builders
end Nurbs
end CAD
