/-
Model of `StringPrint` (src/core/TextProcessing.inl), which formats messages one argument at a time with `snprintf`.
Strings do not contain null characters.
-/
import Mathlib.Data.List.Basic

namespace Ovk.SPrint

variable {A : Type}

/-! ### The C library -/

/-- Characters that end a conversion specification; `%n` is left out. -/
def isConv (c : Char) : Bool := c ∈ "diouxXfFeEgGaAcsp".toList

/-- Flags, widths, precisions, lengths.  `*`, which takes an argument of its own, is left out. -/
def isModifier (c : Char) : Bool := c ∈ "-+ #0123456789.hlqjztL".toList

/-- `printf`: what is written, and the arguments that are not used.  The first argument is the conversion specification
read so far.  `render` writes one argument; undefined (`none`) if it has the wrong type.  Incomplete or invalid
specifications and missing arguments are undefined, superfluous arguments are ignored. -/
def cprintf (render : List Char → A → Option (List Char)) :
    Option (List Char) → List Char → List A → Option (List Char × List A)
  | none, [], as => some ([], as)
  | some _, [], _ => none
  | none, c :: cs, as =>
    if c = '%' then cprintf render (some ['%']) cs as
    else (cprintf render none cs as).map fun r => (c :: r.1, r.2)
  | some d, c :: cs, as =>
    if d = ['%'] ∧ c = '%' then (cprintf render none cs as).map fun r => ('%' :: r.1, r.2)
    else if isConv c then
      match as with
      | [] => none
      | a :: as => (render (d ++ [c]) a).bind fun s => (cprintf render none cs as).map fun r => (s ++ r.1, r.2)
    else if isModifier c then cprintf render (some (d ++ [c])) cs as
    else none

/-! ### StringPrint -/

/-- The string up to the first position with `Format[iPos] == '%' && Format[iPos+1] != '%'`, and the string from there
(TextProcessing.inl:103-108, 135-140).  Behind the end there is a null character. -/
def findSplit : List Char → List Char × List Char
  | [] => ([], [])
  | c :: cs => if c = '%' ∧ cs.head? ≠ some '%' then ([], c :: cs) else (c :: (findSplit cs).1, (findSplit cs).2)

/-- `NumSplits` (TextProcessing.inl:122-128). -/
def numSplits : List Char → Nat
  | [] => 0
  | c :: cs => (if c = '%' ∧ cs.head? ≠ some '%' then 1 else 0) + numSplits cs

/-- `StringPrintAppend` with one argument (TextProcessing.inl:79-96): `snprintf`. -/
def print1 (render : List Char → A → Option (List Char)) (fmt : List Char) (a : A) : Option (List Char) :=
  (cprintf render none fmt [a]).map Prod.fst

/-- `Format.substr(0, iSplitPos)` and `Format.substr(iSplitPos)` (TextProcessing.inl:101-111): the search starts at 1, and
`iSplitPos` is 0 if it finds nothing. -/
def splitAfter : List Char → List Char × List Char
  | [] => ([], [])
  | c :: cs => if (findSplit cs).2 = [] then ([], c :: cs) else (c :: (findSplit cs).1, (findSplit cs).2)

/-- `StringPrintAppend` (TextProcessing.inl:79-113); the first argument is given separately. -/
def append (render : List Char → A → Option (List Char)) : List Char → A → List A → Option (List Char)
  | fmt, a, [] => print1 render fmt a
  | fmt, a, b :: bs =>
    (print1 render (splitAfter fmt).1 a).bind fun s => (append render (splitAfter fmt).2 b bs).map fun t => s ++ t

/-- `StringPrint` (TextProcessing.inl:117-155); `debug`: the assertion at 131 is compiled. -/
def stringPrint (render : List Char → A → Option (List Char)) (debug : Bool) (fmt : List Char) :
    List A → Option (List Char)
  | [] => some fmt
  | a :: as =>
    if debug = true ∧ numSplits fmt ≠ as.length + 1 then none
    else (append render (findSplit fmt).2 a as).map fun s => (findSplit fmt).1 ++ s

end Ovk.SPrint
