import Verif.Spec.Display
import Verif.Model.Debug
/-!
# Specification vocabulary: texts for debugging

`o.alt` says whether the text is the one of `{:#?}` or the one of `{:?}`; `DFmt.std` are the options of these two.
-/

namespace Sqrid.Spec

/-- A text that goes on with a comma, a blank or a closing bracket. -/
def Ends (s : List Char) : Prop := ∃ c rest, s = c :: rest ∧ (c = ',' ∨ c = ' ' ∨ c = ')' ∨ c = ']')

/-- Texts of values which one can read back when a comma, a blank or a closing bracket follows: the value and the place where its text ends are determined. -/
def Readable (text : α → List Char) : Prop := ∀ a b s t, Ends s → Ends t → text a ++ s = text b ++ t → a = b ∧ s = t

/-- The options leave no doubt where the text of an integer begins and ends: nothing is filled up, or with zeros after the sign, or with a character that is no part
of an integer and no bracket that ends a list. -/
def Clear (o : DFmt) : Prop := o.width = none ∨ o.zero = true ∨ o.fill ∉ "0123456789abcdefABCDEFx+-]".toList

/-- An integer in decimal, with its sign: `-`, or `+` if that is asked for. -/
def signed (plus : Bool) (v : Int) : List Char := (if v < 0 then ['-'] else if plus then ['+'] else []) ++ number v.natAbs

/-- A natural number in hexadecimal, in capitals or not. -/
def hexadecimal (upper : Bool) (n : Nat) : List Char := (Nat.toDigits 16 n).map fun c => if upper then c.toUpper else c

/-- Texts with a separator between them. -/
def between (sep : List Char) (xs : List (List Char)) : List Char := (xs.intersperse sep).flatten

/-- The text of an optional value with `{:?}`. -/
def maybe (text : α → List Char) : Option α → List Char
  | none => "None".toList
  | some a => "Some(".toList ++ text a ++ ")".toList

end Sqrid.Spec
