import Verif.Spec.Records

/-!
Specification vocabulary for whole GDSII streams seen as sequences of records.
-/

namespace Gdspy.Spec

/-- The concatenation of the records of a stream. -/
def streamBytes (l : List Frame) : Bytes := (l.map Frame.bytes).flatten

/-- The record carries a time stamp (BGNLIB or BGNSTR). -/
def Frame.Stamped (f : Frame) : Prop := f.dt = 2 ∧ (f.type = 1 ∨ f.type = 5)

instance (f : Frame) : Decidable f.Stamped := by unfold Frame.Stamped; infer_instance

/-- Stamped records hold exactly twelve words. -/
def Frame.StampOk (f : Frame) : Prop := f.Stamped → f.payload.length = 24

/-- The record that opens a cell. -/
def Frame.BeginsCell (f : Frame) : Prop := f.type = 5 ∧ f.dt = 2

/-- The record that closes a cell. -/
def Frame.EndsCell (f : Frame) : Prop := f.type = 7 ∧ f.dt = 0

instance (f : Frame) : Decidable f.BeginsCell := by unfold Frame.BeginsCell; infer_instance

instance (f : Frame) : Decidable f.EndsCell := by unfold Frame.EndsCell; infer_instance

/-- What may follow the last record: up to three stray bytes, or NUL padding of any length
(GDSII files on tape blocks are padded so). -/
def Padding (tail : Bytes) : Prop := tail.length < 4 ∨ ∃ k, tail = List.replicate k 0

/-- The 24 bytes of a time stamp: twelve big-endian words, the same date and time twice. -/
def stampBytes (t : Timestamp) : Bytes :=
  let once := [t.year, t.month, t.day, t.hour, t.minute, t.second].flatMap (twosComplement 2)
  once ++ once

/-- All fields fit a signed word (true of every Python `datetime`). -/
def Timestamp.Fits (t : Timestamp) : Prop :=
  ∀ x ∈ [t.year, t.month, t.day, t.hour, t.minute, t.second], -32768 ≤ x ∧ x < 32768

/-- A stream as a sequence of cells and of records outside of cells. -/
inductive Item where
  /-- a record outside of cells -/
  | other (f : Frame)
  /-- a cell: the payload of its BGNSTR record and the records up to, excluding, ENDSTR -/
  | cell (stamp : Bytes) (body : List Frame)

def Item.frames : Item → List Frame
  | .other f => [f]
  | .cell stamp body => [⟨5, 2, stamp⟩] ++ body ++ [⟨7, 0, []⟩]

/-- Neither opens nor closes a cell. -/
def Frame.Plain (f : Frame) : Prop := f.Fits ∧ ¬ f.BeginsCell ∧ ¬ f.EndsCell

def Item.Ok : Item → Prop
  | .other f => f.Plain
  | .cell stamp body => stamp.length = 24 ∧ ∀ f ∈ body, f.Plain

/-- The bytes of a stream of items. -/
def itemsBytes (l : List Item) : Bytes := streamBytes (l.flatMap Item.frames)

/-- The bodies of the cells, in file order. -/
def cellBodies : List Item → List Bytes
  | [] => []
  | .other _ :: l => cellBodies l
  | .cell _ body :: l => streamBytes body :: cellBodies l

end Gdspy.Spec
