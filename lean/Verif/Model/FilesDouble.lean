import Verif.Model.Float32
import Verif.Model.Decimal
import Verif.Model.Rounded

/-! The numbers of STL and OBJ files as meshes of `double` coordinates (taken as real numbers) see
them: `/repo/src/STLFile.cpp` 46-57 and 92-106 convert to `float` and back,
`/repo/src/OBJFile.cpp` 46 and 109-111 write six digits and read the nearest `double`.

Every `double` is a rational number; what the functions do with other reals does not matter. -/

namespace CAD
open Classical

/-- the rational number that a real one is -/
noncomputable def ratOf (x : ℝ) : ℚ := if h : ∃ q : ℚ, (q : ℝ) = x then h.choose else 0

/-- `(float)x` stored in memory, STLFile.cpp 46-57 -/
noncomputable def Stl.encD (x : ℝ) : List Byte := F32.enc (ratOf x)

/-- the `float` read from memory as `double`, STLFile.cpp 92-106 -/
noncomputable def Stl.decD (b : List Byte) : ℝ := (F32.dec b : ℝ)

/-- how coordinates are written and read, OBJFile.cpp 109-111 and 46; the reader rounds what it reads
to the nearest `double` -/
noncomputable def Obj.codecD : Obj.Codec ℝ :=
  ⟨fun x => Obj.showG (ratOf x), fun r => (Obj.scanG r).map fun y => (double (y.1 : ℝ), y.2), 0⟩

end CAD
