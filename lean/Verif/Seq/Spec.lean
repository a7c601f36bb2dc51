import Verif.Seq.Model
/-!
# Specification of written and read sequences, independent of streams
-/
namespace Helper.Seq

variable {T : Type u} {K : Type v}

/-- Text of a list of item texts with a separator between consecutive items. -/
def sepText (sep : List Char) : List (List Char) → List Char
  | [] => []
  | [t] => t
  | t :: u :: ts => t ++ sep ++ sepText sep (u :: ts)

/-- Only blanks. -/
def Blank (b : List Char) : Prop := ∀ c ∈ b, isSpace c = true

/-- `Item inp x r`: `inp` starts with a text of the item `x`, followed by `r`. The grammar of
sequences is parametric in it. -/
abbrev ItemGrammar (T : Type u) := List Char → T → List Char → Prop

/-- One or more items separated by `sep`, the last one followed by `closing` (blanks allowed before
the delimiters); `rest` is what follows. -/
inductive Items (Item : ItemGrammar T) (closing sep : Char) :
    List Char → List T → List Char → Prop
  | last {inp x b rest} : Item inp x (b ++ closing :: rest) → Blank b →
      Items Item closing sep inp [x] rest
  | more {inp x b tail xs rest} : Item inp x (b ++ sep :: tail) → Blank b →
      Items Item closing sep tail xs rest → Items Item closing sep inp (x :: xs) rest

/-- Does the text start with blanks and `c`? -/
def StartsWith (c : Char) (inp : List Char) : Prop := ∃ b r, Blank b ∧ inp = b ++ c :: r

/-- A bracketed list: opening, then either closing or items. -/
def Sequence (Item : ItemGrammar T) (opening closing sep : Char)
    (inp : List Char) (xs : List T) (rest : List Char) : Prop :=
  ∃ b body, Blank b ∧ inp = b ++ opening :: body ∧
    ((xs = [] ∧ ∃ b', Blank b' ∧ body = b' ++ closing :: rest) ∨
     (¬ StartsWith closing body ∧ Items Item closing sep body xs rest))

/-- Numerical value of a string of decimal digits. -/
def numeral (ds : List Char) : Nat := ds.foldl (fun a c => a * 10 + (c.toNat - 48)) 0

/-- An integer: blanks, an optional sign and a maximal non-empty run of digits, with a value in
the range `lo … hi`. -/
def IntItem (lo hi : Int) (inp : List Char) (x : Int) (rest : List Char) : Prop :=
  ∃ b sign ds, Blank b ∧ (sign = [] ∨ sign = ['+'] ∨ sign = ['-']) ∧ ds ≠ [] ∧
    (∀ c ∈ ds, '0' ≤ c ∧ c ≤ '9') ∧ (∀ c r, rest = c :: r → ¬ ('0' ≤ c ∧ c ≤ '9')) ∧
    inp = b ++ sign ++ ds ++ rest ∧
    x = (if sign = ['-'] then - (numeral ds : Int) else (numeral ds : Int)) ∧ lo ≤ x ∧ x ≤ hi

/-- A bit: an integer with value 0 or 1. -/
def BitItem (inp : List Char) (x : Bool) (rest : List Char) : Prop :=
  IntItem 0 1 inp (if x then 1 else 0) rest

end Helper.Seq
