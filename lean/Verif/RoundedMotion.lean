import Verif.Rounded
import Verif.Transform

/-!
# Motions in rounded arithmetic

Translations and matrix transformations applied to points, surfaces and the basis vectors of a crystal, with every operation
rounded.  A MultiTransform and repeated calls of `transform` are lists of moves.  Reflections of surfaces raise (`Tr.alg`) and are
left out; so is the state that a raising call leaves behind.
-/

namespace CZ
namespace Fl

noncomputable section

/-- transform.py:100-149 (Translation), 151-249 (MatrixTransform, Inversion, Rotation): what one transformation does to surfaces and
crystals; `o` is the relative origin if there is one. -/
inductive Move where
  | shift (s : V3 ℝ)
  | matrix (M : M3 ℝ) (o : Option (V3 ℝ))

variable (A : Arith)

/-- `np.dot(M, v)`. -/
def mulVec (M : M3 ℝ) (v : V3 ℝ) : V3 ℝ := ⟨A.dot M.row0 v, A.dot M.row1 v, A.dot M.row2 v⟩

/-- transform.py:135-136, 207-214, `applyTransformation` on one point. -/
def Move.point : Move → V3 ℝ → V3 ℝ
  | .shift s, p => add A p s
  | .matrix M (some o), p => add A (mulVec A M (sub A p o)) o
  | .matrix M none, p => mulVec A M p

/-- transform.py:138-139, 216-217, `applyTransformation_bases`. -/
def Move.bases : Move → M3 ℝ → M3 ℝ
  | .shift _, B => B
  | .matrix M _, B =>
    ⟨A.dot M.row0 B.col0, A.dot M.row0 B.col1, A.dot M.row0 B.col2,
     A.dot M.row1 B.col0, A.dot M.row1 B.col1, A.dot M.row1 B.col2,
     A.dot M.row2 B.col0, A.dot M.row2 B.col1, A.dot M.row2 B.col2⟩

/-- transform.py:141-149, 219-249, `applyTransformation_alg`: normals and axes go through their setters. -/
def Move.alg (m : Move) : Alg → Py Alg
  | .sphere s => .ok (.sphere { s with center := m.point A s.center })
  | .plane p =>
    match m with
    | .shift _ => .ok (.plane { p with point := m.point A p.point })
    | .matrix M _ =>
      match normalSet A (mulVec A M p.normal) with
      | .ok n => .ok (.plane { p with point := m.point A p.point, normal := n })
      | .error e => .error e
  | .cyl c =>
    match m with
    | .shift _ => .ok (.cyl { c with point := m.point A c.point })
    | .matrix M _ =>
      match axisSet A (mulVec A M c.axis) with
      | .ok a => .ok (.cyl { c with point := m.point A c.point, axis := a })
      | .error e => .error e

/-- A point after all moves (transform.py:411-414). -/
def pointOf : List Move → V3 ℝ → V3 ℝ
  | [], p => p
  | m :: ms, p => pointOf ms (m.point A p)

/-- Basis vectors after all moves (transform.py:416-419). -/
def basesOf : List Move → M3 ℝ → M3 ℝ
  | [], B => B
  | m :: ms, B => basesOf ms (m.bases A B)

/-- A surface after all moves (transform.py:421-424). -/
def algOf : List Move → Alg → Py Alg
  | [], a => .ok a
  | m :: ms, a =>
    match m.alg A a with
    | .ok a' => algOf ms a'
    | .error e => .error e

end
end Fl
end CZ
