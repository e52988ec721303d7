import Verif.Model.Mesh

/-!
Model of `Face` (src/Face.cpp) and `Solid` (src/Solid.cpp).

A value of type `Res X` with `none` stands for a failed assert in the mesh copy.
`junk` is the indeterminate colour of a mesh under construction (the copy
constructor of `Mesh` reads it, see `Mesh.copyConstruct`).
-/

namespace CAD

/-- class `Face`, src/Face.h 7-27 -/
structure Face (K : Type) where
  mesh : Mesh K
  color : Int

namespace Face
variable {K : Type}

/-- `Face::Face()` 5-8 -/
def new : Face K := ⟨Mesh.new, 0x808080⟩

/-- `Face::Face(const Face&)` 10-14 -/
def copy (junk : Int) (f : Face K) : Res (Face K) := do
  let m ← Mesh.copyConstruct junk f.mesh
  return ⟨m, f.color⟩

/-- `Face::Face(const Mesh&)` 16-20 -/
def ofMesh (junk : Int) (m : Mesh K) : Res (Face K) := do
  let m ← Mesh.copyConstruct junk m
  return ⟨m, 0x808080⟩

/-- `Face::operator=` 26-29: `return *new Face(*this);`.  First the object
assigned to, then the object the returned reference refers to (allocated on the
heap and never freed). -/
def assign (junk : Int) (this _other : Face K) : Res (Face K × Face K) := do
  let r ← copy junk this
  return (this, r)

/-- `Face::set_color` 31-34 -/
def setColor (f : Face K) (c : Int) : Face K := { f with color := c }

/-- a write through the reference returned by `Face::mesh()` 36-39 -/
def setMesh (f : Face K) (m : Mesh K) : Face K := { f with mesh := m }

end Face

/-- class `Solid`, src/Solid.h 11-31 -/
structure Solid (K : Type) where
  mesh : Mesh K
  faces : List (Face K)

namespace Solid
variable {K : Type}

/-- `Solid::Solid()` 5-7 -/
def new : Solid K := ⟨Mesh.new, []⟩

/-- `Solid::Solid(const Solid&)` 9-12: `_faces` is default constructed -/
def copy (junk : Int) (f : Solid K) : Res (Solid K) := do
  let m ← Mesh.copyConstruct junk f.mesh
  return ⟨m, []⟩

/-- `Solid::Solid(const Mesh&)` 14-17 -/
def ofMesh (junk : Int) (m : Mesh K) : Res (Solid K) := do
  let m ← Mesh.copyConstruct junk m
  return ⟨m, []⟩

/-- `Solid::operator=` 23-26: `return *new Solid(*this);`, as for `Face` -/
def assign (junk : Int) (this _other : Solid K) : Res (Solid K × Solid K) := do
  let r ← copy junk this
  return (this, r)

/-- `Solid::add_face` 35-38; `push_back` copy-constructs the face.  (When the
vector grows it also copies the faces already stored, each copy equal to the
original up to unlinked triangles; the growth policy is the library's and not
modelled: stored faces stay as they are.) -/
def addFace (junk : Int) (s : Solid K) (f : Face K) : Res (Solid K) := do
  let c ← Face.copy junk f
  return { s with faces := s.faces ++ [c] }

/-- a write through the reference returned by `Solid::mesh()` 29-32 -/
def setMesh (s : Solid K) (m : Mesh K) : Solid K := { s with mesh := m }

end Solid
end CAD
