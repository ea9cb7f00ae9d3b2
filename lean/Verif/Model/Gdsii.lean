import Verif.Model.Real8

/-!
# GDSII streams: record readers, content hash, time stamps

Model of `gdspy/gdsiiformat.py` lines 41-124 and 184-287.
-/

namespace Gdspy

/-- The payload of a record as delivered by `_record_reader`. -/
inductive Data where
  | none
  | u16 (l : List Nat)
  | i16 (l : List Int)
  | i32 (l : List Int)
  | real (l : List ℚ)
  | str (s : Str)
  deriving DecidableEq, Repr

/-- `[rec_type, data]` (gdsiiformat.py:101). -/
structure Record where
  type : Nat
  data : Data
  deriving DecidableEq, Repr

/-- gdsiiformat.py:86-91: `[_eight_byte_real_to_float(stream.read(8)) for _ in range(k)]`;
returns the numbers and the rest of the stream. -/
def readReals : Nat → Bytes → Py (List ℚ × Bytes)
  | 0, s => .ok ([], s)
  | k + 1, s => do
      let x ← eightByteRealToFloat (s.take 8)
      let (xs, r) ← readReals k (s.drop 8)
      pure (x :: xs, r)

/-- gdsiiformat.py:93-100 (Python 3 branch): strip one trailing NUL and decode.
`data[-1]` raises `IndexError` when nothing could be read. -/
def readText (b : Bytes) : Py Str :=
  match b.getLast? with
  | Option.none => .error .indexError
  | some l => if l = 0 then decodeAscii b.dropLast else decodeAscii b

/-- gdsiiformat.py:62-100: payload of a record with size field `size` and data type
`dt`, together with the unread rest of the stream. `stream.read(n)` returns
at most the bytes that are left. -/
def readPayload (size dt : Nat) (s : Bytes) : Py (Data × Bytes) :=
  if size > 4 then
    let n := size - 4
    if dt = 0x01 then do
      let l ← unpackHs (n / 2) (s.take n)
      pure (.u16 l, s.drop n)
    else if dt = 0x02 then do
      let l ← unpackHs (n / 2) (s.take n)
      pure (.i16 (l.map sgn16), s.drop n)
    else if dt = 0x03 then do
      let l ← unpackls (n / 4) (s.take n)
      pure (.i32 l, s.drop n)
    else if dt = 0x05 then do
      let (l, r) ← readReals (n / 8) s
      pure (.real l, r)
    else do
      let t ← readText (s.take n)
      pure (.str t, s.drop n)
  else .ok (.none, s)

theorem readReals_length {k : Nat} : ∀ {s : Bytes} {x : List ℚ × Bytes},
    readReals k s = .ok x → x.2.length ≤ s.length := by
  induction k with
  | zero => intro s x h; simp [readReals] at h; subst h; simp
  | succ k ih =>
    intro s x h
    simp only [readReals, bind, Except.bind] at h
    split at h
    · cases h
    · split at h
      · cases h
      · rename_i v w hw
        have := ih hw
        cases h
        simp at this ⊢
        omega

theorem readPayload_length {size dt : Nat} {s : Bytes} {x : Data × Bytes}
    (h : readPayload size dt s = .ok x) : x.2.length ≤ s.length := by
  unfold readPayload at h
  split at h
  · dsimp only at h
    split at h
    · cases hu : unpackHs ((size - 4) / 2) (s.take (size - 4)) <;>
        simp [hu, bind, Except.bind, pure, Except.pure] at h
      subst h; simp
    · split at h
      · cases hu : unpackHs ((size - 4) / 2) (s.take (size - 4)) <;>
          simp [hu, bind, Except.bind, pure, Except.pure] at h
        subst h; simp
      · split at h
        · cases hu : unpackls ((size - 4) / 4) (s.take (size - 4)) <;>
            simp [hu, bind, Except.bind, pure, Except.pure] at h
          subst h; simp
        · split at h
          · cases hu : readReals ((size - 4) / 8) s with
            | error e => simp [hu, bind, Except.bind] at h
            | ok y =>
              simp [hu, bind, Except.bind, pure, Except.pure] at h
              subst h
              exact readReals_length hu
          · cases hu : readText (s.take (size - 4)) <;>
              simp [hu, bind, Except.bind, pure, Except.pure] at h
            subst h; simp
  · cases h; simp

/-- gdsiiformat.py:41-101 `_record_reader`: the records yielded by the generator, and the
exception that ended it, if any. -/
def recordReader (s : Bytes) : List Record × Option PyErr :=
  match s with
  | a :: b :: c :: d :: s' =>
    match h : readPayload (rd16 a b) (rd16 c d &&& 0x00FF) s' with
    | .error e => ([], some e)
    | .ok x =>
      have : x.2.length < (a :: b :: c :: d :: s').length := by
        have := readPayload_length h
        simp only [List.length_cons]; omega
      let r := recordReader x.2
      (⟨rd16 c d / 256, x.1⟩ :: r.1, r.2)
  | _ => ([], Option.none)
termination_by s.length

/-- gdsiiformat.py:104-124 `_raw_record_reader`: pairs of record type and bytes.
`stream.read(size - 4)` with `size < 4` has a negative argument and reads the whole
rest of the stream. -/
def rawRecordReader (s : Bytes) : List (Nat × Bytes) :=
  match s with
  | a :: b :: c :: d :: s' =>
    let size := rd16 a b
    if size < 4 then [(rd16 c d / 256, a :: b :: c :: d :: s')]
    else (rd16 c d / 256, a :: b :: c :: d :: s'.take (size - 4)) ::
      rawRecordReader (s'.drop (size - 4))
  | _ => []
termination_by s.length
decreasing_by simp; omega

/-! ## Content hash -/

/-- State of the loop of `gdsii_hash` (gdsiiformat.py:210-225). -/
structure HashState where
  start : Nat
  pos : Nat
  contents : List Bytes
  deriving DecidableEq, Repr

/-- Result of one pass through the loop test and body. -/
inductive HashStep where
  | next (s : HashState)
  | finish (contents : List Bytes)
  | raise (e : PyErr)
  deriving DecidableEq, Repr

/-- Python slice `data[i:j]` for non-negative indices. -/
def pySlice (data : Bytes) (i j : Nat) : Bytes := (data.take j).drop i

/-- gdsiiformat.py:212-225: one iteration of the `while` loop. `struct.unpack` raises
when fewer than 4 bytes are left. -/
def hashStep (data : Bytes) (st : HashState) : HashStep :=
  if st.pos < data.length then
    match data.drop st.pos with
    | a :: b :: c :: d :: _ =>
      let size := rd16 a b
      let rec' := rd16 c d
      if rec' = 0x0502 then
        .next { st with start := st.pos + 28, pos := st.pos + size }
      else if rec' = 0x0700 then
        .next { st with contents := st.contents ++ [pySlice data st.start st.pos],
                        pos := st.pos + size }
      else if size = 0 then .finish st.contents
      else .next { st with pos := st.pos + size }
    | _ => .raise .structError
  else .finish st.contents

/-- gdsiiformat.py:212-225: the `while` loop, limited to `fuel` iterations; `none` if it
has not finished by then. -/
def hashLoop (data : Bytes) : Nat → HashState → Option (Py (List Bytes))
  | 0, _ => Option.none
  | fuel + 1, st =>
    match hashStep data st with
    | .next st' => hashLoop data fuel st'
    | .finish c => some (.ok c)
    | .raise e => some (.error e)

/-- Lexicographic order on byte strings (Python `bytes.__lt__`), as used by `sorted`. -/
def bytesLe : Bytes → Bytes → Bool
  | [], _ => true
  | _ :: _, [] => false
  | a :: as, b :: bs => a < b || (a == b && bytesLe as bs)

/-- gdsiiformat.py:184-229 `gdsii_hash`: the byte strings passed to `h.update`, in order
(`sorted(contents)`). The engine itself is not modelled: it only sees these. -/
def hashUpdates (fuel : Nat) (data : Bytes) : Option (Py (List Bytes)) :=
  match hashLoop data fuel ⟨0, 0, []⟩ with
  | Option.none => Option.none
  | some (.error e) => some (.error e)
  | some (.ok c) => some (.ok (c.mergeSort bytesLe))

/-! ## Time stamps -/

/-- The fields of `datetime` that are used. -/
structure Timestamp where
  year : Int
  month : Int
  day : Int
  hour : Int
  minute : Int
  second : Int
  deriving DecidableEq, Repr

/-- gdsiiformat.py:257-271 (and the `12h` part of library.py:148-168, 2468-2490,
2999-3021): the twelve words of a time stamp. -/
def packTs (t : Timestamp) : Py Bytes := do
  let a ← packh t.year
  let b ← packh t.month
  let c ← packh t.day
  let d ← packh t.hour
  let e ← packh t.minute
  let f ← packh t.second
  pure (a ++ b ++ c ++ d ++ e ++ f ++ (a ++ b ++ c ++ d ++ e ++ f))

/-- gdsiiformat.py:275-287: the loop over the open file. `done` is the part of the file
before the current position, `todo` the part from it on. Returns the resulting file contents
and the exception raised, if any. Writing past the end extends the file; seeking past the
end makes the next read return nothing. The warning for an incomplete header is not
modelled. -/
def setTsLoop (ts : Bytes) (todo : Bytes) : Bytes × Option PyErr :=
  match todo with
  | a :: b :: c :: d :: s' =>
    let size := rd16 a b
    let rec_type := rd16 c d
    if rec_type = 0x0102 ∨ rec_type = 0x0502 then
      if size = 28 then
        let r := setTsLoop ts (s'.drop ts.length)
        (a :: b :: c :: d :: (ts ++ r.1), r.2)
      else (todo, some .assertionError)
    else if size > 4 then
      let r := setTsLoop ts (s'.drop (size - 4))
      (a :: b :: c :: d :: (s'.take (size - 4) ++ r.1), r.2)
    else
      let r := setTsLoop ts s'
      (a :: b :: c :: d :: r.1, r.2)
  | _ => (todo, Option.none)
termination_by todo.length
decreasing_by all_goals (simp; omega)

/-- gdsiiformat.py:232-287 `set_gdsii_timestamp`: new file contents and exception raised. -/
def setGdsiiTimestamp (data : Bytes) (t : Timestamp) : Bytes × Option PyErr :=
  match packTs t with
  | .error e => (data, some e)
  | .ok ts => setTsLoop ts data

end Gdspy
