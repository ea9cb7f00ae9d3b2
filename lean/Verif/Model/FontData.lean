import Verif.Model.Shapes

/-!
The glyph table of `Text`, copied from the dictionary in gdspy/polygon.py:868-962, in the same order.
-/

namespace Gdspy

/-- polygon.py:868-962, entries 1 to 8 of the dictionary. -/
def fontTable0 : List (Char × List (List (Int × Int))) := [
  ('!', [[(2, 2), (3, 2), (3, 3), (2, 3)],
    [(2, 4), (3, 4), (3, 5), (3, 6), (3, 7), (3, 8), (3, 9), (2, 9), (2, 8), (2, 7), (2, 6), (2, 5)]]),
  ('"', [[(1, 7), (2, 7), (2, 8), (2, 9), (1, 9), (1, 8)],
    [(3, 7), (4, 7), (4, 8), (4, 9), (3, 9), (3, 8)]]),
  ('#', [[(0, 3), (1, 3), (1, 2), (2, 2), (2, 3), (2, 4), (2, 5), (3, 5), (3, 4), (2, 4), (2, 3), (3, 3), (3, 2), (4, 2), (4, 3), (5, 3), (5, 4), (4, 4), (4, 5), (5, 5), (5, 6), (4, 6), (4, 7), (3, 7), (3, 6), (2, 6), (2, 7), (1, 7), (1, 6), (0, 6), (0, 5), (1, 5), (1, 4), (0, 4)]]),
  ('$', [[(0, 2), (1, 2), (2, 2), (2, 1), (3, 1), (3, 2), (4, 2), (4, 3), (3, 3), (3, 4), (4, 4), (4, 5), (3, 5), (3, 6), (3, 7), (4, 7), (5, 7), (5, 8), (4, 8), (3, 8), (3, 9), (2, 9), (2, 8), (1, 8), (1, 7), (2, 7), (2, 6), (1, 6), (1, 5), (2, 5), (2, 4), (2, 3), (1, 3), (0, 3)],
    [(0, 6), (1, 6), (1, 7), (0, 7)],
    [(4, 3), (5, 3), (5, 4), (4, 4)]]),
  ('%', [[(0, 2), (1, 2), (1, 3), (1, 4), (0, 4), (0, 3)],
    [(0, 7), (1, 7), (2, 7), (2, 8), (2, 9), (1, 9), (0, 9), (0, 8)],
    [(1, 4), (2, 4), (2, 5), (1, 5)],
    [(2, 5), (3, 5), (3, 6), (2, 6)],
    [(3, 2), (4, 2), (5, 2), (5, 3), (5, 4), (4, 4), (3, 4), (3, 3)],
    [(3, 6), (4, 6), (4, 7), (3, 7)],
    [(4, 7), (5, 7), (5, 8), (5, 9), (4, 9), (4, 8)]]),
  ('&', [[(0, 3), (1, 3), (1, 4), (1, 5), (0, 5), (0, 4)],
    [(0, 6), (1, 6), (1, 7), (1, 8), (0, 8), (0, 7)],
    [(1, 2), (2, 2), (3, 2), (3, 3), (2, 3), (1, 3)],
    [(1, 5), (2, 5), (3, 5), (3, 6), (3, 7), (3, 8), (2, 8), (2, 7), (2, 6), (1, 6)],
    [(1, 8), (2, 8), (2, 9), (1, 9)],
    [(3, 3), (4, 3), (4, 4), (4, 5), (3, 5), (3, 4)],
    [(4, 2), (5, 2), (5, 3), (4, 3)],
    [(4, 5), (5, 5), (5, 6), (4, 6)]]),
  ('\'', [[(2, 7), (3, 7), (3, 8), (3, 9), (2, 9), (2, 8)]]),
  ('(', [[(1, 4), (2, 4), (2, 5), (2, 6), (2, 7), (1, 7), (1, 6), (1, 5)],
    [(2, 3), (3, 3), (3, 4), (2, 4)],
    [(2, 7), (3, 7), (3, 8), (2, 8)],
    [(3, 2), (4, 2), (4, 3), (3, 3)],
    [(3, 8), (4, 8), (4, 9), (3, 9)]])]

/-- polygon.py:868-962, entries 9 to 16 of the dictionary. -/
def fontTable1 : List (Char × List (List (Int × Int))) := [
  (')', [[(3, 4), (4, 4), (4, 5), (4, 6), (4, 7), (3, 7), (3, 6), (3, 5)],
    [(1, 2), (2, 2), (2, 3), (1, 3)],
    [(1, 8), (2, 8), (2, 9), (1, 9)],
    [(2, 3), (3, 3), (3, 4), (2, 4)],
    [(2, 7), (3, 7), (3, 8), (2, 8)]]),
  ('*', [[(0, 2), (1, 2), (1, 3), (0, 3)],
    [(0, 4), (1, 4), (1, 3), (2, 3), (2, 2), (3, 2), (3, 3), (4, 3), (4, 4), (5, 4), (5, 5), (4, 5), (4, 6), (3, 6), (3, 7), (2, 7), (2, 6), (1, 6), (1, 5), (0, 5)],
    [(0, 6), (1, 6), (1, 7), (0, 7)],
    [(4, 2), (5, 2), (5, 3), (4, 3)],
    [(4, 6), (5, 6), (5, 7), (4, 7)]]),
  ('+', [[(0, 4), (1, 4), (2, 4), (2, 3), (2, 2), (3, 2), (3, 3), (3, 4), (4, 4), (5, 4), (5, 5), (4, 5), (3, 5), (3, 6), (3, 7), (2, 7), (2, 6), (2, 5), (1, 5), (0, 5)]]),
  (',', [[(1, 0), (2, 0), (2, 1), (1, 1)],
    [(2, 1), (3, 1), (3, 2), (3, 3), (2, 3), (2, 2)]]),
  ('-', [[(0, 4), (1, 4), (2, 4), (3, 4), (4, 4), (5, 4), (5, 5), (4, 5), (3, 5), (2, 5), (1, 5), (0, 5)]]),
  ('.', [[(2, 2), (3, 2), (3, 3), (2, 3)]]),
  ('/', [[(0, 2), (1, 2), (1, 3), (1, 4), (0, 4), (0, 3)],
    [(1, 4), (2, 4), (2, 5), (1, 5)],
    [(2, 5), (3, 5), (3, 6), (2, 6)],
    [(3, 6), (4, 6), (4, 7), (3, 7)],
    [(4, 7), (5, 7), (5, 8), (5, 9), (4, 9), (4, 8)]]),
  ('0', [[(0, 3), (1, 3), (1, 4), (2, 4), (2, 5), (1, 5), (1, 6), (1, 7), (1, 8), (0, 8), (0, 7), (0, 6), (0, 5), (0, 4)],
    [(1, 2), (2, 2), (3, 2), (4, 2), (4, 3), (3, 3), (2, 3), (1, 3)],
    [(1, 8), (2, 8), (3, 8), (4, 8), (4, 9), (3, 9), (2, 9), (1, 9)],
    [(2, 5), (3, 5), (3, 6), (2, 6)],
    [(3, 6), (4, 6), (4, 5), (4, 4), (4, 3), (5, 3), (5, 4), (5, 5), (5, 6), (5, 7), (5, 8), (4, 8), (4, 7), (3, 7)]])]

/-- polygon.py:868-962, entries 17 to 24 of the dictionary. -/
def fontTable2 : List (Char × List (List (Int × Int))) := [
  ('1', [[(1, 2), (2, 2), (3, 2), (4, 2), (4, 3), (3, 3), (3, 4), (3, 5), (3, 6), (3, 7), (3, 8), (3, 9), (2, 9), (2, 8), (1, 8), (1, 7), (2, 7), (2, 6), (2, 5), (2, 4), (2, 3), (1, 3)]]),
  ('2', [[(0, 2), (1, 2), (2, 2), (3, 2), (4, 2), (5, 2), (5, 3), (4, 3), (3, 3), (2, 3), (1, 3), (1, 4), (0, 4), (0, 3)],
    [(0, 7), (1, 7), (1, 8), (0, 8)],
    [(1, 4), (2, 4), (3, 4), (3, 5), (2, 5), (1, 5)],
    [(1, 8), (2, 8), (3, 8), (4, 8), (4, 9), (3, 9), (2, 9), (1, 9)],
    [(3, 5), (4, 5), (4, 6), (3, 6)],
    [(4, 6), (5, 6), (5, 7), (5, 8), (4, 8), (4, 7)]]),
  ('3', [[(0, 2), (1, 2), (2, 2), (3, 2), (4, 2), (4, 3), (3, 3), (2, 3), (1, 3), (0, 3)],
    [(0, 8), (1, 8), (2, 8), (3, 8), (4, 8), (4, 9), (3, 9), (2, 9), (1, 9), (0, 9)],
    [(1, 5), (2, 5), (3, 5), (4, 5), (4, 6), (3, 6), (2, 6), (1, 6)],
    [(4, 3), (5, 3), (5, 4), (5, 5), (4, 5), (4, 4)],
    [(4, 6), (5, 6), (5, 7), (5, 8), (4, 8), (4, 7)]]),
  ('4', [[(0, 4), (1, 4), (2, 4), (3, 4), (3, 3), (3, 2), (4, 2), (4, 3), (4, 4), (5, 4), (5, 5), (4, 5), (4, 6), (4, 7), (4, 8), (4, 9), (3, 9), (2, 9), (2, 8), (3, 8), (3, 7), (3, 6), (3, 5), (2, 5), (1, 5), (1, 6), (0, 6), (0, 5)],
    [(1, 6), (2, 6), (2, 7), (2, 8), (1, 8), (1, 7)]]),
  ('5', [[(0, 2), (1, 2), (2, 2), (3, 2), (4, 2), (4, 3), (3, 3), (2, 3), (1, 3), (0, 3)],
    [(0, 5), (1, 5), (2, 5), (3, 5), (4, 5), (4, 6), (3, 6), (2, 6), (1, 6), (1, 7), (1, 8), (2, 8), (3, 8), (4, 8), (5, 8), (5, 9), (4, 9), (3, 9), (2, 9), (1, 9), (0, 9), (0, 8), (0, 7), (0, 6)],
    [(4, 3), (5, 3), (5, 4), (5, 5), (4, 5), (4, 4)]]),
  ('6', [[(0, 3), (1, 3), (1, 4), (1, 5), (2, 5), (3, 5), (4, 5), (4, 6), (3, 6), (2, 6), (1, 6), (1, 7), (1, 8), (0, 8), (0, 7), (0, 6), (0, 5), (0, 4)],
    [(1, 2), (2, 2), (3, 2), (4, 2), (4, 3), (3, 3), (2, 3), (1, 3)],
    [(1, 8), (2, 8), (3, 8), (4, 8), (4, 9), (3, 9), (2, 9), (1, 9)],
    [(4, 3), (5, 3), (5, 4), (5, 5), (4, 5), (4, 4)]]),
  ('7', [[(0, 8), (1, 8), (2, 8), (3, 8), (4, 8), (4, 7), (4, 6), (5, 6), (5, 7), (5, 8), (5, 9), (4, 9), (3, 9), (2, 9), (1, 9), (0, 9)],
    [(2, 2), (3, 2), (3, 3), (3, 4), (3, 5), (2, 5), (2, 4), (2, 3)],
    [(3, 5), (4, 5), (4, 6), (3, 6)]]),
  ('8', [[(0, 3), (1, 3), (1, 4), (1, 5), (0, 5), (0, 4)],
    [(0, 6), (1, 6), (1, 7), (1, 8), (0, 8), (0, 7)],
    [(1, 2), (2, 2), (3, 2), (4, 2), (4, 3), (3, 3), (2, 3), (1, 3)],
    [(1, 5), (2, 5), (3, 5), (4, 5), (4, 6), (3, 6), (2, 6), (1, 6)],
    [(1, 8), (2, 8), (3, 8), (4, 8), (4, 9), (3, 9), (2, 9), (1, 9)],
    [(4, 3), (5, 3), (5, 4), (5, 5), (4, 5), (4, 4)],
    [(4, 6), (5, 6), (5, 7), (5, 8), (4, 8), (4, 7)]])]

/-- polygon.py:868-962, entries 25 to 32 of the dictionary. -/
def fontTable3 : List (Char × List (List (Int × Int))) := [
  ('9', [[(0, 6), (1, 6), (1, 7), (1, 8), (0, 8), (0, 7)],
    [(1, 2), (2, 2), (3, 2), (4, 2), (4, 3), (3, 3), (2, 3), (1, 3)],
    [(1, 5), (2, 5), (3, 5), (4, 5), (4, 4), (4, 3), (5, 3), (5, 4), (5, 5), (5, 6), (5, 7), (5, 8), (4, 8), (4, 7), (4, 6), (3, 6), (2, 6), (1, 6)],
    [(1, 8), (2, 8), (3, 8), (4, 8), (4, 9), (3, 9), (2, 9), (1, 9)]]),
  (':', [[(2, 2), (3, 2), (3, 3), (2, 3)],
    [(2, 5), (3, 5), (3, 6), (2, 6)]]),
  (';', [[(1, 0), (2, 0), (2, 1), (1, 1)],
    [(2, 1), (3, 1), (3, 2), (3, 3), (2, 3), (2, 2)],
    [(2, 4), (3, 4), (3, 5), (2, 5)]]),
  ('<', [[(0, 5), (1, 5), (1, 6), (0, 6)],
    [(1, 4), (2, 4), (2, 5), (1, 5)],
    [(1, 6), (2, 6), (2, 7), (1, 7)],
    [(2, 3), (3, 3), (4, 3), (4, 4), (3, 4), (2, 4)],
    [(2, 7), (3, 7), (4, 7), (4, 8), (3, 8), (2, 8)],
    [(4, 2), (5, 2), (5, 3), (4, 3)],
    [(4, 8), (5, 8), (5, 9), (4, 9)]]),
  ('=', [[(0, 3), (1, 3), (2, 3), (3, 3), (4, 3), (5, 3), (5, 4), (4, 4), (3, 4), (2, 4), (1, 4), (0, 4)],
    [(0, 5), (1, 5), (2, 5), (3, 5), (4, 5), (5, 5), (5, 6), (4, 6), (3, 6), (2, 6), (1, 6), (0, 6)]]),
  ('>', [[(0, 2), (1, 2), (1, 3), (0, 3)],
    [(0, 8), (1, 8), (1, 9), (0, 9)],
    [(1, 3), (2, 3), (3, 3), (3, 4), (2, 4), (1, 4)],
    [(1, 7), (2, 7), (3, 7), (3, 8), (2, 8), (1, 8)],
    [(3, 4), (4, 4), (4, 5), (3, 5)],
    [(3, 6), (4, 6), (4, 7), (3, 7)],
    [(4, 5), (5, 5), (5, 6), (4, 6)]]),
  ('?', [[(0, 7), (1, 7), (1, 8), (0, 8)],
    [(1, 8), (2, 8), (3, 8), (4, 8), (4, 9), (3, 9), (2, 9), (1, 9)],
    [(2, 2), (3, 2), (3, 3), (2, 3)],
    [(2, 4), (3, 4), (3, 5), (2, 5)],
    [(3, 5), (4, 5), (4, 6), (3, 6)],
    [(4, 6), (5, 6), (5, 7), (5, 8), (4, 8), (4, 7)]]),
  ('@', [[(0, 3), (1, 3), (1, 4), (1, 5), (1, 6), (1, 7), (1, 8), (0, 8), (0, 7), (0, 6), (0, 5), (0, 4)],
    [(1, 2), (2, 2), (3, 2), (4, 2), (4, 3), (3, 3), (2, 3), (1, 3)],
    [(1, 8), (2, 8), (3, 8), (4, 8), (4, 9), (3, 9), (2, 9), (1, 9)],
    [(2, 4), (3, 4), (4, 4), (4, 5), (3, 5), (3, 6), (3, 7), (2, 7), (2, 6), (2, 5)],
    [(4, 5), (5, 5), (5, 6), (5, 7), (5, 8), (4, 8), (4, 7), (4, 6)]])]

/-- polygon.py:868-962, entries 33 to 40 of the dictionary. -/
def fontTable4 : List (Char × List (List (Int × Int))) := [
  ('A', [[(0, 2), (1, 2), (1, 3), (1, 4), (2, 4), (3, 4), (4, 4), (4, 3), (4, 2), (5, 2), (5, 3), (5, 4), (5, 5), (5, 6), (5, 7), (5, 8), (4, 8), (4, 7), (4, 6), (4, 5), (3, 5), (2, 5), (1, 5), (1, 6), (1, 7), (1, 8), (0, 8), (0, 7), (0, 6), (0, 5), (0, 4), (0, 3)],
    [(1, 8), (2, 8), (3, 8), (4, 8), (4, 9), (3, 9), (2, 9), (1, 9)]]),
  ('B', [[(0, 2), (1, 2), (2, 2), (3, 2), (4, 2), (4, 3), (3, 3), (2, 3), (1, 3), (1, 4), (1, 5), (2, 5), (3, 5), (4, 5), (4, 6), (3, 6), (2, 6), (1, 6), (1, 7), (1, 8), (2, 8), (3, 8), (4, 8), (4, 9), (3, 9), (2, 9), (1, 9), (0, 9), (0, 8), (0, 7), (0, 6), (0, 5), (0, 4), (0, 3)],
    [(4, 3), (5, 3), (5, 4), (5, 5), (4, 5), (4, 4)],
    [(4, 6), (5, 6), (5, 7), (5, 8), (4, 8), (4, 7)]]),
  ('C', [[(0, 3), (1, 3), (1, 4), (1, 5), (1, 6), (1, 7), (1, 8), (0, 8), (0, 7), (0, 6), (0, 5), (0, 4)],
    [(1, 2), (2, 2), (3, 2), (4, 2), (5, 2), (5, 3), (4, 3), (3, 3), (2, 3), (1, 3)],
    [(1, 8), (2, 8), (3, 8), (4, 8), (5, 8), (5, 9), (4, 9), (3, 9), (2, 9), (1, 9)]]),
  ('D', [[(0, 2), (1, 2), (2, 2), (3, 2), (3, 3), (2, 3), (1, 3), (1, 4), (1, 5), (1, 6), (1, 7), (1, 8), (2, 8), (3, 8), (3, 9), (2, 9), (1, 9), (0, 9), (0, 8), (0, 7), (0, 6), (0, 5), (0, 4), (0, 3)],
    [(3, 3), (4, 3), (4, 4), (3, 4)],
    [(3, 7), (4, 7), (4, 8), (3, 8)],
    [(4, 4), (5, 4), (5, 5), (5, 6), (5, 7), (4, 7), (4, 6), (4, 5)]]),
  ('E', [[(0, 2), (1, 2), (2, 2), (3, 2), (4, 2), (5, 2), (5, 3), (4, 3), (3, 3), (2, 3), (1, 3), (1, 4), (1, 5), (2, 5), (3, 5), (4, 5), (4, 6), (3, 6), (2, 6), (1, 6), (1, 7), (1, 8), (2, 8), (3, 8), (4, 8), (5, 8), (5, 9), (4, 9), (3, 9), (2, 9), (1, 9), (0, 9), (0, 8), (0, 7), (0, 6), (0, 5), (0, 4), (0, 3)]]),
  ('F', [[(0, 2), (1, 2), (1, 3), (1, 4), (1, 5), (2, 5), (3, 5), (4, 5), (4, 6), (3, 6), (2, 6), (1, 6), (1, 7), (1, 8), (2, 8), (3, 8), (4, 8), (5, 8), (5, 9), (4, 9), (3, 9), (2, 9), (1, 9), (0, 9), (0, 8), (0, 7), (0, 6), (0, 5), (0, 4), (0, 3)]]),
  ('G', [[(0, 3), (1, 3), (1, 4), (1, 5), (1, 6), (1, 7), (1, 8), (0, 8), (0, 7), (0, 6), (0, 5), (0, 4)],
    [(1, 2), (2, 2), (3, 2), (4, 2), (5, 2), (5, 3), (5, 4), (5, 5), (5, 6), (4, 6), (3, 6), (2, 6), (2, 5), (3, 5), (4, 5), (4, 4), (4, 3), (3, 3), (2, 3), (1, 3)],
    [(1, 8), (2, 8), (3, 8), (4, 8), (5, 8), (5, 9), (4, 9), (3, 9), (2, 9), (1, 9)]]),
  ('H', [[(0, 2), (1, 2), (1, 3), (1, 4), (1, 5), (2, 5), (3, 5), (4, 5), (4, 4), (4, 3), (4, 2), (5, 2), (5, 3), (5, 4), (5, 5), (5, 6), (5, 7), (5, 8), (5, 9), (4, 9), (4, 8), (4, 7), (4, 6), (3, 6), (2, 6), (1, 6), (1, 7), (1, 8), (1, 9), (0, 9), (0, 8), (0, 7), (0, 6), (0, 5), (0, 4), (0, 3)]])]

/-- polygon.py:868-962, entries 41 to 48 of the dictionary. -/
def fontTable5 : List (Char × List (List (Int × Int))) := [
  ('I', [[(1, 2), (2, 2), (3, 2), (4, 2), (4, 3), (3, 3), (3, 4), (3, 5), (3, 6), (3, 7), (3, 8), (4, 8), (4, 9), (3, 9), (2, 9), (1, 9), (1, 8), (2, 8), (2, 7), (2, 6), (2, 5), (2, 4), (2, 3), (1, 3)]]),
  ('J', [[(0, 3), (1, 3), (1, 4), (0, 4)],
    [(0, 8), (1, 8), (2, 8), (3, 8), (3, 7), (3, 6), (3, 5), (3, 4), (3, 3), (4, 3), (4, 4), (4, 5), (4, 6), (4, 7), (4, 8), (5, 8), (5, 9), (4, 9), (3, 9), (2, 9), (1, 9), (0, 9)],
    [(1, 2), (2, 2), (3, 2), (3, 3), (2, 3), (1, 3)]]),
  ('K', [[(0, 2), (1, 2), (1, 3), (1, 4), (1, 5), (2, 5), (2, 6), (1, 6), (1, 7), (1, 8), (1, 9), (0, 9), (0, 8), (0, 7), (0, 6), (0, 5), (0, 4), (0, 3)],
    [(2, 4), (3, 4), (3, 5), (2, 5)],
    [(2, 6), (3, 6), (3, 7), (2, 7)],
    [(3, 3), (4, 3), (4, 4), (3, 4)],
    [(3, 7), (4, 7), (4, 8), (3, 8)],
    [(4, 2), (5, 2), (5, 3), (4, 3)],
    [(4, 8), (5, 8), (5, 9), (4, 9)]]),
  ('L', [[(0, 2), (1, 2), (2, 2), (3, 2), (4, 2), (5, 2), (5, 3), (4, 3), (3, 3), (2, 3), (1, 3), (1, 4), (1, 5), (1, 6), (1, 7), (1, 8), (1, 9), (0, 9), (0, 8), (0, 7), (0, 6), (0, 5), (0, 4), (0, 3)]]),
  ('M', [[(0, 2), (1, 2), (1, 3), (1, 4), (1, 5), (1, 6), (1, 7), (2, 7), (2, 8), (1, 8), (1, 9), (0, 9), (0, 8), (0, 7), (0, 6), (0, 5), (0, 4), (0, 3)],
    [(2, 5), (3, 5), (3, 6), (3, 7), (2, 7), (2, 6)],
    [(3, 7), (4, 7), (4, 6), (4, 5), (4, 4), (4, 3), (4, 2), (5, 2), (5, 3), (5, 4), (5, 5), (5, 6), (5, 7), (5, 8), (5, 9), (4, 9), (4, 8), (3, 8)]]),
  ('N', [[(0, 2), (1, 2), (1, 3), (1, 4), (1, 5), (1, 6), (1, 7), (2, 7), (2, 8), (1, 8), (1, 9), (0, 9), (0, 8), (0, 7), (0, 6), (0, 5), (0, 4), (0, 3)],
    [(2, 5), (3, 5), (3, 6), (3, 7), (2, 7), (2, 6)],
    [(3, 4), (4, 4), (4, 3), (4, 2), (5, 2), (5, 3), (5, 4), (5, 5), (5, 6), (5, 7), (5, 8), (5, 9), (4, 9), (4, 8), (4, 7), (4, 6), (4, 5), (3, 5)]]),
  ('O', [[(0, 3), (1, 3), (1, 4), (1, 5), (1, 6), (1, 7), (1, 8), (0, 8), (0, 7), (0, 6), (0, 5), (0, 4)],
    [(1, 2), (2, 2), (3, 2), (4, 2), (4, 3), (3, 3), (2, 3), (1, 3)],
    [(1, 8), (2, 8), (3, 8), (4, 8), (4, 9), (3, 9), (2, 9), (1, 9)],
    [(4, 3), (5, 3), (5, 4), (5, 5), (5, 6), (5, 7), (5, 8), (4, 8), (4, 7), (4, 6), (4, 5), (4, 4)]]),
  ('P', [[(0, 2), (1, 2), (1, 3), (1, 4), (1, 5), (2, 5), (3, 5), (4, 5), (4, 6), (3, 6), (2, 6), (1, 6), (1, 7), (1, 8), (2, 8), (3, 8), (4, 8), (4, 9), (3, 9), (2, 9), (1, 9), (0, 9), (0, 8), (0, 7), (0, 6), (0, 5), (0, 4), (0, 3)],
    [(4, 6), (5, 6), (5, 7), (5, 8), (4, 8), (4, 7)]])]

/-- polygon.py:868-962, entries 49 to 56 of the dictionary. -/
def fontTable6 : List (Char × List (List (Int × Int))) := [
  ('Q', [[(0, 3), (1, 3), (1, 4), (1, 5), (1, 6), (1, 7), (1, 8), (0, 8), (0, 7), (0, 6), (0, 5), (0, 4)],
    [(1, 2), (2, 2), (3, 2), (4, 2), (4, 3), (5, 3), (5, 4), (5, 5), (5, 6), (5, 7), (5, 8), (4, 8), (4, 7), (4, 6), (4, 5), (4, 4), (3, 4), (3, 3), (2, 3), (1, 3)],
    [(1, 8), (2, 8), (3, 8), (4, 8), (4, 9), (3, 9), (2, 9), (1, 9)],
    [(2, 4), (3, 4), (3, 5), (2, 5)]]),
  ('R', [[(0, 2), (1, 2), (1, 3), (1, 4), (1, 5), (2, 5), (3, 5), (3, 4), (4, 4), (4, 5), (4, 6), (3, 6), (2, 6), (1, 6), (1, 7), (1, 8), (2, 8), (3, 8), (4, 8), (4, 9), (3, 9), (2, 9), (1, 9), (0, 9), (0, 8), (0, 7), (0, 6), (0, 5), (0, 4), (0, 3)],
    [(4, 2), (5, 2), (5, 3), (5, 4), (4, 4), (4, 3)],
    [(4, 6), (5, 6), (5, 7), (5, 8), (4, 8), (4, 7)]]),
  ('S', [[(0, 2), (1, 2), (2, 2), (3, 2), (4, 2), (4, 3), (3, 3), (2, 3), (1, 3), (0, 3)],
    [(0, 6), (1, 6), (1, 7), (1, 8), (0, 8), (0, 7)],
    [(1, 5), (2, 5), (3, 5), (4, 5), (4, 6), (3, 6), (2, 6), (1, 6)],
    [(1, 8), (2, 8), (3, 8), (4, 8), (5, 8), (5, 9), (4, 9), (3, 9), (2, 9), (1, 9)],
    [(4, 3), (5, 3), (5, 4), (5, 5), (4, 5), (4, 4)]]),
  ('T', [[(0, 8), (1, 8), (2, 8), (2, 7), (2, 6), (2, 5), (2, 4), (2, 3), (2, 2), (3, 2), (3, 3), (3, 4), (3, 5), (3, 6), (3, 7), (3, 8), (4, 8), (5, 8), (5, 9), (4, 9), (3, 9), (2, 9), (1, 9), (0, 9)]]),
  ('U', [[(0, 3), (1, 3), (1, 4), (1, 5), (1, 6), (1, 7), (1, 8), (1, 9), (0, 9), (0, 8), (0, 7), (0, 6), (0, 5), (0, 4)],
    [(1, 2), (2, 2), (3, 2), (4, 2), (4, 3), (3, 3), (2, 3), (1, 3)],
    [(4, 3), (5, 3), (5, 4), (5, 5), (5, 6), (5, 7), (5, 8), (5, 9), (4, 9), (4, 8), (4, 7), (4, 6), (4, 5), (4, 4)]]),
  ('V', [[(0, 5), (1, 5), (1, 6), (1, 7), (1, 8), (1, 9), (0, 9), (0, 8), (0, 7), (0, 6)],
    [(1, 3), (2, 3), (2, 4), (2, 5), (1, 5), (1, 4)],
    [(2, 2), (3, 2), (3, 3), (2, 3)],
    [(3, 3), (4, 3), (4, 4), (4, 5), (3, 5), (3, 4)],
    [(4, 5), (5, 5), (5, 6), (5, 7), (5, 8), (5, 9), (4, 9), (4, 8), (4, 7), (4, 6)]]),
  ('W', [[(0, 3), (1, 3), (1, 4), (1, 5), (1, 6), (1, 7), (1, 8), (1, 9), (0, 9), (0, 8), (0, 7), (0, 6), (0, 5), (0, 4)],
    [(1, 2), (2, 2), (2, 3), (1, 3)],
    [(2, 3), (3, 3), (3, 4), (3, 5), (3, 6), (2, 6), (2, 5), (2, 4)],
    [(3, 2), (4, 2), (4, 3), (3, 3)],
    [(4, 3), (5, 3), (5, 4), (5, 5), (5, 6), (5, 7), (5, 8), (5, 9), (4, 9), (4, 8), (4, 7), (4, 6), (4, 5), (4, 4)]]),
  ('X', [[(0, 2), (1, 2), (1, 3), (1, 4), (0, 4), (0, 3)],
    [(0, 7), (1, 7), (1, 8), (1, 9), (0, 9), (0, 8)],
    [(1, 4), (2, 4), (2, 5), (1, 5)],
    [(1, 6), (2, 6), (2, 7), (1, 7)],
    [(2, 5), (3, 5), (3, 6), (2, 6)],
    [(3, 4), (4, 4), (4, 5), (3, 5)],
    [(3, 6), (4, 6), (4, 7), (3, 7)],
    [(4, 2), (5, 2), (5, 3), (5, 4), (4, 4), (4, 3)],
    [(4, 7), (5, 7), (5, 8), (5, 9), (4, 9), (4, 8)]])]

/-- polygon.py:868-962, entries 57 to 64 of the dictionary. -/
def fontTable7 : List (Char × List (List (Int × Int))) := [
  ('Y', [[(0, 7), (1, 7), (1, 8), (1, 9), (0, 9), (0, 8)],
    [(1, 5), (2, 5), (2, 6), (2, 7), (1, 7), (1, 6)],
    [(2, 2), (3, 2), (3, 3), (3, 4), (3, 5), (2, 5), (2, 4), (2, 3)],
    [(3, 5), (4, 5), (4, 6), (4, 7), (3, 7), (3, 6)],
    [(4, 7), (5, 7), (5, 8), (5, 9), (4, 9), (4, 8)]]),
  ('Z', [[(0, 2), (1, 2), (2, 2), (3, 2), (4, 2), (5, 2), (5, 3), (4, 3), (3, 3), (2, 3), (1, 3), (1, 4), (0, 4), (0, 3)],
    [(0, 8), (1, 8), (2, 8), (3, 8), (4, 8), (4, 7), (5, 7), (5, 8), (5, 9), (4, 9), (3, 9), (2, 9), (1, 9), (0, 9)],
    [(1, 4), (2, 4), (2, 5), (1, 5)],
    [(2, 5), (3, 5), (3, 6), (2, 6)],
    [(3, 6), (4, 6), (4, 7), (3, 7)]]),
  ('[', [[(1, 2), (2, 2), (3, 2), (4, 2), (4, 3), (3, 3), (2, 3), (2, 4), (2, 5), (2, 6), (2, 7), (2, 8), (3, 8), (4, 8), (4, 9), (3, 9), (2, 9), (1, 9), (1, 8), (1, 7), (1, 6), (1, 5), (1, 4), (1, 3)]]),
  ('\\', [[(0, 7), (1, 7), (1, 8), (1, 9), (0, 9), (0, 8)],
    [(1, 6), (2, 6), (2, 7), (1, 7)],
    [(2, 5), (3, 5), (3, 6), (2, 6)],
    [(3, 4), (4, 4), (4, 5), (3, 5)],
    [(4, 2), (5, 2), (5, 3), (5, 4), (4, 4), (4, 3)]]),
  (']', [[(1, 2), (2, 2), (3, 2), (4, 2), (4, 3), (4, 4), (4, 5), (4, 6), (4, 7), (4, 8), (4, 9), (3, 9), (2, 9), (1, 9), (1, 8), (2, 8), (3, 8), (3, 7), (3, 6), (3, 5), (3, 4), (3, 3), (2, 3), (1, 3)]]),
  ('^', [[(0, 6), (1, 6), (1, 7), (0, 7)],
    [(1, 7), (2, 7), (2, 8), (1, 8)],
    [(2, 8), (3, 8), (3, 9), (2, 9)],
    [(3, 7), (4, 7), (4, 8), (3, 8)],
    [(4, 6), (5, 6), (5, 7), (4, 7)]]),
  ('_', [[(0, 2), (1, 2), (2, 2), (3, 2), (4, 2), (5, 2), (5, 3), (4, 3), (3, 3), (2, 3), (1, 3), (0, 3)]]),
  ('`', [[(1, 8), (2, 8), (2, 9), (1, 9)],
    [(2, 7), (3, 7), (3, 8), (2, 8)]])]

/-- polygon.py:868-962, entries 65 to 72 of the dictionary. -/
def fontTable8 : List (Char × List (List (Int × Int))) := [
  ('a', [[(0, 3), (1, 3), (1, 4), (0, 4)],
    [(1, 2), (2, 2), (3, 2), (4, 2), (5, 2), (5, 3), (5, 4), (5, 5), (5, 6), (4, 6), (4, 5), (3, 5), (2, 5), (1, 5), (1, 4), (2, 4), (3, 4), (4, 4), (4, 3), (3, 3), (2, 3), (1, 3)],
    [(1, 6), (2, 6), (3, 6), (4, 6), (4, 7), (3, 7), (2, 7), (1, 7)]]),
  ('b', [[(0, 2), (1, 2), (2, 2), (3, 2), (4, 2), (4, 3), (3, 3), (2, 3), (1, 3), (1, 4), (1, 5), (1, 6), (2, 6), (3, 6), (4, 6), (4, 7), (3, 7), (2, 7), (1, 7), (1, 8), (1, 9), (0, 9), (0, 8), (0, 7), (0, 6), (0, 5), (0, 4), (0, 3)],
    [(4, 3), (5, 3), (5, 4), (5, 5), (5, 6), (4, 6), (4, 5), (4, 4)]]),
  ('c', [[(0, 3), (1, 3), (1, 4), (1, 5), (1, 6), (0, 6), (0, 5), (0, 4)],
    [(1, 2), (2, 2), (3, 2), (4, 2), (5, 2), (5, 3), (4, 3), (3, 3), (2, 3), (1, 3)],
    [(1, 6), (2, 6), (3, 6), (4, 6), (5, 6), (5, 7), (4, 7), (3, 7), (2, 7), (1, 7)]]),
  ('d', [[(0, 3), (1, 3), (1, 4), (1, 5), (1, 6), (0, 6), (0, 5), (0, 4)],
    [(1, 2), (2, 2), (3, 2), (4, 2), (5, 2), (5, 3), (5, 4), (5, 5), (5, 6), (5, 7), (5, 8), (5, 9), (4, 9), (4, 8), (4, 7), (3, 7), (2, 7), (1, 7), (1, 6), (2, 6), (3, 6), (4, 6), (4, 5), (4, 4), (4, 3), (3, 3), (2, 3), (1, 3)]]),
  ('e', [[(0, 3), (1, 3), (1, 4), (2, 4), (3, 4), (4, 4), (5, 4), (5, 5), (5, 6), (4, 6), (4, 5), (3, 5), (2, 5), (1, 5), (1, 6), (0, 6), (0, 5), (0, 4)],
    [(1, 2), (2, 2), (3, 2), (4, 2), (4, 3), (3, 3), (2, 3), (1, 3)],
    [(1, 6), (2, 6), (3, 6), (4, 6), (4, 7), (3, 7), (2, 7), (1, 7)]]),
  ('f', [[(0, 5), (1, 5), (1, 4), (1, 3), (1, 2), (2, 2), (2, 3), (2, 4), (2, 5), (3, 5), (4, 5), (4, 6), (3, 6), (2, 6), (2, 7), (2, 8), (1, 8), (1, 7), (1, 6), (0, 6)],
    [(2, 8), (3, 8), (4, 8), (5, 8), (5, 9), (4, 9), (3, 9), (2, 9)]]),
  ('g', [[(0, 3), (1, 3), (1, 4), (1, 5), (1, 6), (0, 6), (0, 5), (0, 4)],
    [(1, 0), (2, 0), (3, 0), (4, 0), (4, 1), (3, 1), (2, 1), (1, 1)],
    [(1, 2), (2, 2), (3, 2), (4, 2), (4, 1), (5, 1), (5, 2), (5, 3), (5, 4), (5, 5), (5, 6), (4, 6), (4, 5), (4, 4), (4, 3), (3, 3), (2, 3), (1, 3)],
    [(1, 6), (2, 6), (3, 6), (4, 6), (4, 7), (3, 7), (2, 7), (1, 7)]]),
  ('h', [[(0, 2), (1, 2), (1, 3), (1, 4), (1, 5), (1, 6), (2, 6), (3, 6), (4, 6), (4, 7), (3, 7), (2, 7), (1, 7), (1, 8), (1, 9), (0, 9), (0, 8), (0, 7), (0, 6), (0, 5), (0, 4), (0, 3)],
    [(4, 2), (5, 2), (5, 3), (5, 4), (5, 5), (5, 6), (4, 6), (4, 5), (4, 4), (4, 3)]])]

/-- polygon.py:868-962, entries 73 to 80 of the dictionary. -/
def fontTable9 : List (Char × List (List (Int × Int))) := [
  ('i', [[(1, 6), (2, 6), (2, 5), (2, 4), (2, 3), (2, 2), (3, 2), (4, 2), (4, 3), (3, 3), (3, 4), (3, 5), (3, 6), (3, 7), (2, 7), (1, 7)],
    [(2, 8), (3, 8), (3, 9), (2, 9)]]),
  ('j', [[(0, 0), (1, 0), (2, 0), (2, 1), (1, 1), (0, 1)],
    [(1, 6), (2, 6), (2, 5), (2, 4), (2, 3), (2, 2), (2, 1), (3, 1), (3, 2), (3, 3), (3, 4), (3, 5), (3, 6), (3, 7), (2, 7), (1, 7)],
    [(2, 8), (3, 8), (3, 9), (2, 9)]]),
  ('k', [[(0, 2), (1, 2), (1, 3), (1, 4), (2, 4), (3, 4), (3, 5), (2, 5), (1, 5), (1, 6), (1, 7), (1, 8), (1, 9), (0, 9), (0, 8), (0, 7), (0, 6), (0, 5), (0, 4), (0, 3)],
    [(3, 3), (4, 3), (4, 4), (3, 4)],
    [(3, 5), (4, 5), (4, 6), (3, 6)],
    [(4, 2), (5, 2), (5, 3), (4, 3)],
    [(4, 6), (5, 6), (5, 7), (4, 7)]]),
  ('l', [[(1, 8), (2, 8), (2, 7), (2, 6), (2, 5), (2, 4), (2, 3), (2, 2), (3, 2), (4, 2), (4, 3), (3, 3), (3, 4), (3, 5), (3, 6), (3, 7), (3, 8), (3, 9), (2, 9), (1, 9)]]),
  ('m', [[(0, 2), (1, 2), (1, 3), (1, 4), (1, 5), (1, 6), (2, 6), (2, 5), (2, 4), (2, 3), (2, 2), (3, 2), (3, 3), (3, 4), (3, 5), (3, 6), (4, 6), (4, 7), (3, 7), (2, 7), (1, 7), (0, 7), (0, 6), (0, 5), (0, 4), (0, 3)],
    [(4, 2), (5, 2), (5, 3), (5, 4), (5, 5), (5, 6), (4, 6), (4, 5), (4, 4), (4, 3)]]),
  ('n', [[(0, 2), (1, 2), (1, 3), (1, 4), (1, 5), (1, 6), (2, 6), (3, 6), (4, 6), (4, 7), (3, 7), (2, 7), (1, 7), (0, 7), (0, 6), (0, 5), (0, 4), (0, 3)],
    [(4, 2), (5, 2), (5, 3), (5, 4), (5, 5), (5, 6), (4, 6), (4, 5), (4, 4), (4, 3)]]),
  ('o', [[(0, 3), (1, 3), (1, 4), (1, 5), (1, 6), (0, 6), (0, 5), (0, 4)],
    [(1, 2), (2, 2), (3, 2), (4, 2), (4, 3), (3, 3), (2, 3), (1, 3)],
    [(1, 6), (2, 6), (3, 6), (4, 6), (4, 7), (3, 7), (2, 7), (1, 7)],
    [(4, 3), (5, 3), (5, 4), (5, 5), (5, 6), (4, 6), (4, 5), (4, 4)]]),
  ('p', [[(0, 0), (1, 0), (1, 1), (1, 2), (2, 2), (3, 2), (4, 2), (4, 3), (3, 3), (2, 3), (1, 3), (1, 4), (1, 5), (1, 6), (2, 6), (3, 6), (4, 6), (4, 7), (3, 7), (2, 7), (1, 7), (0, 7), (0, 6), (0, 5), (0, 4), (0, 3), (0, 2), (0, 1)],
    [(4, 3), (5, 3), (5, 4), (5, 5), (5, 6), (4, 6), (4, 5), (4, 4)]])]

/-- polygon.py:868-962, entries 81 to 88 of the dictionary. -/
def fontTable10 : List (Char × List (List (Int × Int))) := [
  ('q', [[(0, 3), (1, 3), (1, 4), (1, 5), (1, 6), (0, 6), (0, 5), (0, 4)],
    [(1, 2), (2, 2), (3, 2), (4, 2), (4, 1), (4, 0), (5, 0), (5, 1), (5, 2), (5, 3), (5, 4), (5, 5), (5, 6), (4, 6), (4, 5), (4, 4), (4, 3), (3, 3), (2, 3), (1, 3)],
    [(1, 6), (2, 6), (3, 6), (4, 6), (4, 7), (3, 7), (2, 7), (1, 7)]]),
  ('r', [[(0, 2), (1, 2), (1, 3), (1, 4), (1, 5), (2, 5), (3, 5), (3, 6), (2, 6), (1, 6), (1, 7), (0, 7), (0, 6), (0, 5), (0, 4), (0, 3)],
    [(3, 6), (4, 6), (5, 6), (5, 7), (4, 7), (3, 7)]]),
  ('s', [[(0, 2), (1, 2), (2, 2), (3, 2), (4, 2), (4, 3), (3, 3), (2, 3), (1, 3), (0, 3)],
    [(0, 5), (1, 5), (1, 6), (0, 6)],
    [(1, 4), (2, 4), (3, 4), (4, 4), (4, 5), (3, 5), (2, 5), (1, 5)],
    [(1, 6), (2, 6), (3, 6), (4, 6), (5, 6), (5, 7), (4, 7), (3, 7), (2, 7), (1, 7)],
    [(4, 3), (5, 3), (5, 4), (4, 4)]]),
  ('t', [[(1, 6), (2, 6), (2, 5), (2, 4), (2, 3), (3, 3), (3, 4), (3, 5), (3, 6), (4, 6), (5, 6), (5, 7), (4, 7), (3, 7), (3, 8), (3, 9), (2, 9), (2, 8), (2, 7), (1, 7)],
    [(3, 2), (4, 2), (5, 2), (5, 3), (4, 3), (3, 3)]]),
  ('u', [[(0, 3), (1, 3), (1, 4), (1, 5), (1, 6), (1, 7), (0, 7), (0, 6), (0, 5), (0, 4)],
    [(1, 2), (2, 2), (3, 2), (4, 2), (4, 3), (3, 3), (2, 3), (1, 3)],
    [(4, 3), (5, 3), (5, 4), (5, 5), (5, 6), (5, 7), (4, 7), (4, 6), (4, 5), (4, 4)]]),
  ('v', [[(0, 5), (1, 5), (1, 6), (1, 7), (0, 7), (0, 6)],
    [(1, 3), (2, 3), (2, 4), (2, 5), (1, 5), (1, 4)],
    [(2, 2), (3, 2), (3, 3), (2, 3)],
    [(3, 3), (4, 3), (4, 4), (4, 5), (3, 5), (3, 4)],
    [(4, 5), (5, 5), (5, 6), (5, 7), (4, 7), (4, 6)]]),
  ('w', [[(0, 3), (1, 3), (1, 4), (1, 5), (1, 6), (1, 7), (0, 7), (0, 6), (0, 5), (0, 4)],
    [(1, 2), (2, 2), (2, 3), (1, 3)],
    [(2, 3), (3, 3), (3, 4), (3, 5), (3, 6), (2, 6), (2, 5), (2, 4)],
    [(3, 2), (4, 2), (4, 3), (3, 3)],
    [(4, 3), (5, 3), (5, 4), (5, 5), (5, 6), (5, 7), (4, 7), (4, 6), (4, 5), (4, 4)]]),
  ('x', [[(0, 2), (1, 2), (1, 3), (0, 3)],
    [(0, 6), (1, 6), (1, 7), (0, 7)],
    [(1, 3), (2, 3), (2, 4), (1, 4)],
    [(1, 5), (2, 5), (2, 6), (1, 6)],
    [(2, 4), (3, 4), (3, 5), (2, 5)],
    [(3, 3), (4, 3), (4, 4), (3, 4)],
    [(3, 5), (4, 5), (4, 6), (3, 6)],
    [(4, 2), (5, 2), (5, 3), (4, 3)],
    [(4, 6), (5, 6), (5, 7), (4, 7)]])]

/-- polygon.py:868-962, entries 89 to 94 of the dictionary. -/
def fontTable11 : List (Char × List (List (Int × Int))) := [
  ('y', [[(0, 3), (1, 3), (1, 4), (1, 5), (1, 6), (1, 7), (0, 7), (0, 6), (0, 5), (0, 4)],
    [(1, 0), (2, 0), (3, 0), (4, 0), (4, 1), (3, 1), (2, 1), (1, 1)],
    [(1, 2), (2, 2), (3, 2), (4, 2), (4, 1), (5, 1), (5, 2), (5, 3), (5, 4), (5, 5), (5, 6), (5, 7), (4, 7), (4, 6), (4, 5), (4, 4), (4, 3), (3, 3), (2, 3), (1, 3)]]),
  ('z', [[(0, 2), (1, 2), (2, 2), (3, 2), (4, 2), (5, 2), (5, 3), (4, 3), (3, 3), (2, 3), (2, 4), (1, 4), (1, 3), (0, 3)],
    [(0, 6), (1, 6), (2, 6), (3, 6), (3, 5), (4, 5), (4, 6), (5, 6), (5, 7), (4, 7), (3, 7), (2, 7), (1, 7), (0, 7)],
    [(2, 4), (3, 4), (3, 5), (2, 5)]]),
  ('{', [[(1, 5), (2, 5), (2, 4), (2, 3), (3, 3), (3, 4), (3, 5), (3, 6), (3, 7), (3, 8), (2, 8), (2, 7), (2, 6), (1, 6)],
    [(3, 2), (4, 2), (5, 2), (5, 3), (4, 3), (3, 3)],
    [(3, 8), (4, 8), (5, 8), (5, 9), (4, 9), (3, 9)]]),
  ('|', [[(2, 2), (3, 2), (3, 3), (3, 4), (3, 5), (3, 6), (3, 7), (3, 8), (3, 9), (2, 9), (2, 8), (2, 7), (2, 6), (2, 5), (2, 4), (2, 3)]]),
  ('}', [[(0, 2), (1, 2), (2, 2), (2, 3), (1, 3), (0, 3)],
    [(0, 8), (1, 8), (2, 8), (2, 9), (1, 9), (0, 9)],
    [(2, 3), (3, 3), (3, 4), (3, 5), (4, 5), (4, 6), (3, 6), (3, 7), (3, 8), (2, 8), (2, 7), (2, 6), (2, 5), (2, 4)]]),
  ('~', [[(0, 6), (1, 6), (1, 7), (1, 8), (0, 8), (0, 7)],
    [(1, 8), (2, 8), (2, 9), (1, 9)],
    [(2, 7), (3, 7), (3, 8), (2, 8)],
    [(3, 6), (4, 6), (4, 7), (3, 7)],
    [(4, 7), (5, 7), (5, 8), (5, 9), (4, 9), (4, 8)]])]

/-- polygon.py:868-962: the whole dictionary. -/
def fontTable : List (Char × List (List (Int × Int))) :=
  fontTable0 ++ fontTable1 ++ fontTable2 ++ fontTable3 ++ fontTable4 ++ fontTable5 ++ fontTable6 ++ fontTable7 ++ fontTable8 ++ fontTable9 ++ fontTable10 ++ fontTable11

/-- `Text._font`: look up a character. -/
def gdspyFont : Font := fun c => fontTable.lookup c

end Gdspy
