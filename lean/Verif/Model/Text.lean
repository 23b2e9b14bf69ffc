/-!
# Text helpers

Model of `FormatNumber` (src/core/TextProcessing.inl 7-77) and `StringReplace`
(src/core/TextProcessing.cpp 13-30).  Strings are lists of characters; `%zu` is `Nat.toDigits 10`.
-/
namespace Ovk.Text

/-- The second loop of `FormatNumber(size_t)` (24-27); `i` is `iInput-NumBeforeComma`. -/
def grouped : Nat → List Char → List Char
  | _, [] => []
  | i, c :: cs => (if i % 3 = 0 then [','] else []) ++ c :: grouped (i + 1) cs

/-- `FormatNumber(size_t)` (7-30) on the digits printed by `sprintf`. -/
def formatDigits (digits : List Char) : List Char :=
  let numBeforeComma := (digits.length - 1) % 3 + 1
  digits.take numBeforeComma ++ grouped 0 (digits.drop numBeforeComma)

/-- `FormatNumber(size_t)` (7-30). -/
def formatNat (n : Nat) : List Char := formatDigits (Nat.toDigits 10 n)

/-- `FormatNumber(long long)` and `FormatNumber(int)` (32-60); `bound` is the number of non-negative values of
the type.  The absolute value of the smallest value is undefined. -/
def formatInt (bound : Nat) (n : Int) : Option (List Char) :=
  if 0 ≤ n then some (formatNat n.toNat)
  else if n = -(bound : Int) then none
  else some ('-' :: formatNat n.natAbs)

/-- `FormatNumber` with labels (62-77). -/
def formatLabel (bound : Nat) (n : Int) (plural singular : List Char) : Option (List Char) :=
  (formatInt bound n).map fun s => s ++ ' ' :: (if n > 1 ∨ n = 0 then plural else singular)

/-- `String.find(Substring, …)` on the rest of the string: number of characters skipped and what follows the occurrence. -/
def findSub (sub : List Char) : List Char → Option (List Char × List Char)
  | [] => if sub = [] then some ([], []) else none
  | c :: cs =>
    if sub.isPrefixOf (c :: cs) then some ([], (c :: cs).drop sub.length)
    else (findSub sub cs).map fun r => (c :: r.1, r.2)

/-- `StringReplace` (TextProcessing.cpp:13-30): the loop, on the characters from `PrevPos`; `none` if it is still
running after `fuel` passes. -/
def replaceLoop (sub rep : List Char) : Nat → List Char → Option (List Char)
  | 0, _ => none
  | fuel + 1, s =>
    match findSub sub s with
    | none => some s
    | some (pre, post) => (replaceLoop sub rep fuel post).map fun t => pre ++ rep ++ t

end Ovk.Text
