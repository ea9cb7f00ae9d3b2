import Verif.Model.Svg

/-!
Specification of the parts of SVG and XML used: transformations, references to groups, and character data.
-/

namespace Gdspy.Spec

variable {K : Type}

/-! ### XML character data -/

/-- The characters allowed in XML 1.0 (section 2.2). -/
def XmlChar (ch : Char) : Prop :=
  ch = '\t' ∨ ch = '\n' ∨ ch = '\r' ∨ (0x20 ≤ ch.toNat ∧ ch.toNat ≤ 0xD7FF) ∨
    (0xE000 ≤ ch.toNat ∧ ch.toNat ≤ 0xFFFD) ∨ 0x10000 ≤ ch.toNat

instance (ch : Char) : Decidable (XmlChar ch) := by unfold XmlChar; infer_instance

/-- End-of-line handling (section 2.11): a carriage return, with the line feed that may follow it, becomes a
line feed. -/
def xmlLines : Str → Str
  | [] => []
  | '\r' :: '\n' :: s => '\n' :: xmlLines s
  | '\r' :: s => '\n' :: xmlLines s
  | ch :: s => ch :: xmlLines s

/-- The five predefined entities (section 4.6). -/
def xmlEntity (s : Str) : Option Char :=
  if s = "amp".toList then some '&' else if s = "lt".toList then some '<'
  else if s = "gt".toList then some '>' else if s = "quot".toList then some '"'
  else if s = "apos".toList then some '\'' else none

/-- Character data (section 2.4): entities are replaced; a less-than sign, an unknown entity or a character
that is not allowed is an error. The state holds the name of the entity being read, if any. -/
def xmlText : Option Str → Str → Option Str
  | none, [] => some []
  | some _, [] => none
  | none, ch :: s =>
    if ch = '&' then xmlText (some []) s
    else if ch = '<' then none
    else if XmlChar ch then (xmlText none s).map fun r => ch :: r
    else none
  | some e, ch :: s =>
    if ch = ';' then match xmlEntity e with
      | none => none
      | some x => (xmlText none s).map fun r => x :: r
    else xmlText (some (e ++ [ch])) s

/-- The text of the element at the start of a document: what is between the end of the start tag and the next
tag. -/
def elementText (s : Str) : Option Str :=
  xmlText none (xmlLines (((s.dropWhile (· ≠ '>')).drop 1).takeWhile (· ≠ '<')))

/-! ### Drawing -/

section

variable [Field K]

/-- SVG 1.1, section 7.6: one item of a list of transformations. -/
def svgPt (t : Trig K) : SvgT K → Pt K → Pt K
  | .translate x y, p => (p.1 + x, p.2 + y)
  | .rotate a, p => (p.1 * t.cos a - p.2 * t.sin a, p.1 * t.sin a + p.2 * t.cos a)
  | .flip, p => (p.1, -p.2)
  | .scale m, p => (m * p.1, m * p.2)

/-- A list of transformations: the last one is applied first. -/
def svgApp (t : Trig K) (l : List (SvgT K)) (p : Pt K) : Pt K := l.foldr (svgPt t) p

/-- The polygons drawn by a list of elements, `<use>` elements being replaced by the group with that
id (the first one, if several have it), `n` levels deep. -/
def svgDraw (t : Trig K) (groups : List (Str × List (SvgEl K))) : Nat → List (SvgEl K) →
    List ((Int × Int) × Pgon K)
  | 0, _ => []
  | n + 1, els => els.flatMap fun
    | .polygon l d pts => [((l, d), pts)]
    | .text .. => []
    | .use tr href => match groups.find? fun g => g.1 = href with
      | none => []
      | some g => (svgDraw t groups n g.2).map fun q => (q.1, q.2.map (svgApp t tr))

/-- The polygons of a document, in the coordinates of the page. -/
def SvgDoc.draw (t : Trig K) (n : Nat) (d : SvgDoc K) : List ((Int × Int) × Pgon K) :=
  (svgDraw t (d.defs ++ [d.top]) n d.top.2).map fun q => (q.1, q.2.map (svgApp t [.flip]))

end

end Gdspy.Spec
