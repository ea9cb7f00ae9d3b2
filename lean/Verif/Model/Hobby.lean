import Verif.Model.Path

/-!
# Hobby's interpolating curves

Model of `_hobby` (hobby.py:37-247), which computes the control points of `Curve.i`, `Curve.I`, `Path.smooth`,
`FlexPath.smooth` and `RobustPath.smooth`.

Coordinates are in a field and the numpy functions are given by `Num`; complex numbers are pairs. `numpy.linalg.solve` is a
parameter, a function of the size, the matrix and the right side. Arrays are functions of the index. Divisions by zero and lists
of the wrong length are `unmodelled`, as are fewer than two points. The contents of `numpy.empty` arrays is a parameter.
-/

namespace Gdspy

variable {K : Type}

/-- `numpy.linalg.solve` for a matrix of the given size. -/
abbrev LinSolve (K : Type) := Nat → (Nat → Nat → K) → (Nat → K) → Py (Nat → K)

/-- The arguments `t_in` and `t_out`: one number or one for each point. -/
inductive Tension (K : Type) where
  | one (t : K)
  | each (l : List K)

/-- hobby.py:85-92. -/
def Tension.list (n : Nat) : Tension K → Py (List K)
  | .one t => .ok (List.replicate n t)
  | .each l => if l.length = n then .ok l else .error .unmodelled

section Hobby

variable [Field K] [LinearOrder K] [FloorRing K]

/-- hobby.py:107, 151: the length of the chord between two points. -/
def chordLen (t : Num K) (p q : Pt K) : K := t.sqrt ((q.1 - p.1) ^ 2 + (q.2 - p.2) ^ 2)

/-- hobby.py:108, 152: the direction of the chord between two points. -/
def chordDir (t : Num K) (p q : Pt K) : K := t.atan2 (q.2 - p.2) (q.1 - p.1)

/-- hobby.py:109, 153: the turn between two directions, `(delta1 - delta0 + numpy.pi) % (2 * numpy.pi) - numpy.pi`. -/
def chordTurn (t : Num K) (delta0 delta1 : K) : K :=
  let x := delta1 - delta0 + 2 * t.halfpi
  x - 2 * (2 * t.halfpi) * (⌊x / (2 * (2 * t.halfpi))⌋ : K) - 2 * t.halfpi

/-- hobby.py:131-146, 225-240: the control points of one segment. The directions at its ends are `w0` and `w1`. -/
def hobbyPoints (t : Num K) (p q : Pt K) (d w0 w1 theta phi tout tin : K) : Py (Pt K × Pt K) :=
  let a := t.sqrt 2
  let b : K := 1 / 16
  let c := (3 - t.sqrt 5) / 2
  let alpha := a * (t.sin theta - b * t.sin phi) * (t.sin phi - b * t.sin theta) * (t.cos theta - t.cos phi)
  let r := 1 + (1 - c) * t.cos theta + c * t.cos phi
  let s := 1 + (1 - c) * t.cos phi + c * t.cos theta
  if r = 0 ∨ s = 0 ∨ tout = 0 ∨ tin = 0 then .error .unmodelled
  else
    let k := d * ((2 + alpha) / r) / (3 * tout)
    let m := d * ((2 - alpha) / s) / (3 * tin)
    .ok ((p.1 + t.cos w0 * k, p.2 + t.sin w0 * k), (q.1 - t.cos w1 * m, q.2 - t.sin w1 * m))

/-- hobby.py:112-126: the matrix for a closed curve. -/
def closedMatrix (n : Nat) (d tin tout : Nat → K) (row col : Nat) : K :=
  if row < n then
    if col = n + (row + n - 1) % n then 1 else if col = row then 1 else 0
  else
    let i := row - n
    let i1 := (i + 1) % n
    let i2 := (i + 2) % n
    if col = n + i1 then -d i * tout i * tout i1 ^ 2
    else if col = row then d i1 * tin i2 * tin i1 ^ 2 * (1 - 3 * tout i)
    else if col = i1 then -d i * tout i * tout i1 ^ 2 * (1 - 3 * tin i2)
    else if col = i then d i1 * tin i2 * tin i1 ^ 2
    else 0

/-- hobby.py:104-146: a closed curve without given angles. -/
def hobbyClosed (t : Num K) (solve : LinSolve K) (n : Nat) (z : Nat → Pt K) (tin tout : Nat → K) :
    Py (List (Pt K × Pt K)) := do
  let d (k : Nat) := chordLen t (z k) (z ((k + 1) % n))
  let delta (k : Nat) := chordDir t (z k) (z ((k + 1) % n))
  let coef (r : Nat) : K := if r < n then -chordTurn t (delta ((r + n - 1) % n)) (delta r) else 0
  let sol ← solve (2 * n) (closedMatrix n d tin tout) coef
  let theta (k : Nat) := sol k
  let phi (k : Nat) := sol (n + k)
  let w (k : Nat) := theta k + delta k
  (List.range n).mapM fun k =>
    hobbyPoints t (z k) (z ((k + 1) % n)) (d k) (w k) (w ((k + 1) % n)) (theta k) (phi k) (tout k) (tin ((k + 1) % n))

/-- hobby.py:173-212: the matrix for the open curve from point `i` to point `i + nn`; `first` and `last` tell whether the angles
there are given, and `n` is the number of segments of the whole curve. -/
def openMatrix (n i nn : Nat) (d tin tout : Nat → K) (first last : Bool) (cs ce : K) (row col : Nat) : K :=
  if row = 0 then
    if first then if col = 0 then 1 else 0
    else if col = 0 then tout 0 ^ 3 * (1 - 3 * tin 1) - cs * tin 1 ^ 3
    else if col = nn then tout 0 ^ 3 - cs * tin 1 ^ 3 * (1 - 3 * tout 0)
    else 0
  else if row < nn then
    if col = row then 1 else if col = nn + (row - 1) then 1 else 0
  else if row = 2 * nn - 1 then
    if last then if col = 2 * nn - 1 then 1 else 0
    else if col = nn - 1 then tin n ^ 3 - ce * tout (n - 1) ^ 3 * (1 - 3 * tin n)
    else if col = 2 * nn - 1 then tin n ^ 3 * (1 - 3 * tout (n - 1)) - ce * tout (n - 1) ^ 3
    else 0
  else
    let ii := row - nn
    let i0 := i + ii
    let i1 := 1 + i0
    let i2 := 2 + i0
    if col = row + 1 then -d i0 * tout i0 * tout i1 ^ 2
    else if col = row then d i1 * tin i2 * tin i1 ^ 2 * (1 - 3 * tout i0)
    else if col = ii + 1 then -d i0 * tout i0 * tout i1 ^ 2 * (1 - 3 * tin i2)
    else if col = ii then d i1 * tin i2 * tin i1 ^ 2
    else 0

/-- hobby.py:171-172, 199, 210: the right side. -/
def openCoef (i nn : Nat) (psi : Nat → K) (first last : Option K) (row : Nat) : K :=
  if row = 0 then first.getD 0
  else if row < nn then -psi (i + row - 1)
  else if row = 2 * nn - 1 then last.getD 0
  else 0

/-- hobby.py:160-162: the first index from `j` on that has an angle, at most `j + fuel`. -/
def nextAngle (angles : Nat → Option K) : Nat → Nat → Nat
  | 0, j => j
  | fuel + 1, j => if (angles j).isNone then nextAngle angles fuel (j + 1) else j

/-- hobby.py:160-168: the end `j` of the part that begins at `i`, and `theta` and `phi` with the angle given there. -/
def hobbyPart (n : Nat) (delta : Nat → K) (angles : Nat → Option K) (i : Nat) (theta phi : Nat → K) :
    Nat × (Nat → K) × (Nat → K) :=
  let j := nextAngle angles (n - i) (i + 1)
  if j = n + 1 then (n, theta, phi)
  else
    match angles j with
    | none => (j, theta, phi)
    | some a =>
      (j, if j < n then Function.update theta j (a - delta j) else theta,
        Function.update phi (j - 1) (delta (j - 1) - a))

/-- hobby.py:159-221: the loop over the parts between given angles; the state is `i`, `theta` and `phi`. -/
def hobbyLoop (solve : LinSolve K) (n : Nat) (d delta psi : Nat → K) (angles : Nat → Option K) (cs ce : K)
    (tin tout : Nat → K) : Nat → Nat → (Nat → K) → (Nat → K) → Py ((Nat → K) × (Nat → K))
  | 0, i, theta, phi => if i < n then .error .unmodelled else .ok (theta, phi)
  | fuel + 1, i, theta, phi =>
    if i < n then do
      let (j, theta, phi) := hobbyPart n delta angles i theta phi
      let nn := j - i
      let first := (angles i).map fun _ => theta i
      let last := (angles j).map fun _ => phi (j - 1)
      if nn > 1 ∨ (angles i).isNone ∨ (angles j).isNone then do
        let sol ← solve (2 * nn) (openMatrix n i nn d tin tout (angles i).isSome (angles j).isSome cs ce)
          (openCoef i nn psi first last)
        hobbyLoop solve n d delta psi angles cs ce tin tout fuel j
          (fun k => if i ≤ k ∧ k < j then sol (k - i) else theta k)
          (fun k => if i ≤ k ∧ k < j then sol (nn + (k - i)) else phi k)
      else hobbyLoop solve n d delta psi angles cs ce tin tout fuel j theta phi
    else .ok (theta, phi)

/-- hobby.py:147-240: an open curve with `n` segments. `junk` is the contents of the arrays `theta` and `phi` at first. -/
def hobbyOpen (t : Num K) (solve : LinSolve K) (junk : (Nat → K) × (Nat → K)) (n : Nat) (z : Nat → Pt K)
    (angles : Nat → Option K) (cs ce : K) (tin tout : Nat → K) : Py (List (Pt K × Pt K)) := do
  let d (k : Nat) := chordLen t (z k) (z (k + 1))
  let delta (k : Nat) := chordDir t (z k) (z (k + 1))
  let psi (k : Nat) := chordTurn t (delta k) (delta (k + 1))
  let theta := match angles 0 with
    | none => junk.1
    | some a => Function.update junk.1 0 (a - delta 0)
  let (theta, phi) ← hobbyLoop solve n d delta psi angles cs ce tin tout n 0 theta junk.2
  let w (k : Nat) := if k < n then delta k + theta k else delta (n - 1) - phi (n - 1)
  (List.range n).mapM fun k =>
    hobbyPoints t (z k) (z (k + 1)) (d k) (w k) (w (k + 1)) (theta k) (phi k) (tout k) (tin (k + 1))

/-- hobby.py:37-247 `_hobby`. -/
def hobby (t : Num K) (solve : LinSolve K) (junk : (Nat → K) × (Nat → K)) (angles : Option (List (Option K))) (cs ce : K)
    (tin tout : Tension K) (cycle : Bool) : Hobby K := fun points => do
  let n := points.length
  if n < 2 then .error .unmodelled
  else
    let tin ← tin.list n
    let tout ← tout.list n
    let angles := angles.getD (List.replicate n none)
    if angles.length ≠ n then .error .unmodelled
    else
      let z (k : Nat) := points.getD k (0, 0)
      let ang (k : Nat) := angles.getD k none
      let tin (k : Nat) := tin.getD k 0
      let tout (k : Nat) := tout.getD k 0
      let l ←
        if cycle then
          if angles.any Option.isSome then
            let rotate := angles.findIdx Option.isSome
            let at_ (k : Nat) := (rotate + k) % n
            match hobbyOpen t solve junk n (fun k => z (at_ k)) (fun k => ang (at_ k)) cs ce (fun k => tin (at_ k))
              (fun k => tout (at_ k)) with
            | .error e => .error e
            | .ok l => .ok ((List.range n).map fun k => l.getD ((k + n - rotate) % n) ((0, 0), (0, 0)))
          else hobbyClosed t solve n z tin tout
        else hobbyOpen t solve junk (n - 1) z ang cs ce tin tout
      .ok (l.map Prod.fst, l.map Prod.snd)

end Hobby

end Gdspy
