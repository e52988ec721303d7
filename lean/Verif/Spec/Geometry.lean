import Verif.Lemmas.Point

/-!
Independent geometric vocabulary for the statements: point sets described by
their parametrisation, not by the code.
-/

namespace CAD
variable {K : Type*} [Field K] [LinearOrder K]

/-- `q` is a point of the closed segment. -/
def OnSegment (s : Seg3 K) (q : P3 K) : Prop :=
  ∃ t : K, 0 ≤ t ∧ t ≤ 1 ∧ q = s.p1 + t • (s.p2 - s.p1)

/-- `q` is a point of the open segment. -/
def InsideSegment (s : Seg3 K) (q : P3 K) : Prop :=
  ∃ t : K, 0 < t ∧ t < 1 ∧ q = s.p1 + t • (s.p2 - s.p1)

/-- `q` is a convex combination of the three corners. -/
def InTriangle (t : Tri3 K) (q : P3 K) : Prop :=
  ∃ a b c : K, 0 ≤ a ∧ 0 ≤ b ∧ 0 ≤ c ∧ a + b + c = 1 ∧ q = a • t.p1 + b • t.p2 + c • t.p3

omit [LinearOrder K] in
/-- `q` is an affine combination of the three corners (in the plane they span). -/
def InPlaneOf (t : Tri3 K) (q : P3 K) : Prop :=
  ∃ a b c : K, a + b + c = 1 ∧ q = a • t.p1 + b • t.p2 + c • t.p3

omit [LinearOrder K] in
/-- the infinite line through two points -/
def OnLine (p r q : P3 K) : Prop := ∃ b c : K, b + c = 1 ∧ q = b • p + c • r

omit [LinearOrder K] in
/-- three points on one straight line -/
def Collinear3 (p q r : P3 K) : Prop :=
  ∃ (o d : P3 K) (a b c : K), p = o + a • d ∧ q = o + b • d ∧ r = o + c • d

/-- closed axis-parallel box -/
def InBox (b : BBox K) (q : P3 K) : Prop :=
  (b.lo.x ≤ q.x ∧ q.x ≤ b.hi.x) ∧ (b.lo.y ≤ q.y ∧ q.y ≤ b.hi.y) ∧
    (b.lo.z ≤ q.z ∧ q.z ≤ b.hi.z)

omit [LinearOrder K] in
/-- points satisfying the plane equation -/
def OnPlane (p : Plane3 K) (q : P3 K) : Prop := p.a * q.x + p.b * q.y + p.c * q.z + p.d = 0

end CAD
