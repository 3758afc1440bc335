import Verif.Model.Reader

/-!
# Specification of text files
-/

namespace Kws.Spec

/-- The lines of a text: maximal runs of characters without line feed, each but possibly the last
ended by a line feed. -/
def lines : Str → List Str
  | [] => []
  | c :: r =>
    if c = '\n' then [] :: lines r
    else
      match lines r with
      | [] => [[c]]
      | l :: ls => (c :: l) :: ls

/-- A text without visible characters. -/
def Blank (l : Str) : Prop := ∀ c ∈ l, isSpace c = true

/-- A line whose first visible character is `#`. -/
def Comment (l : Str) : Prop := ∃ pre post, l = pre ++ '#' :: post ∧ Blank pre

/-- Lines that carry no event. -/
def Ignored (l : Str) : Prop := Blank l ∨ Comment l

/-- The words of a text: maximal runs of characters that are not whitespace. -/
def words : Str → List Str
  | [] => []
  | c :: r =>
    if isSpace c then words r
    else
      match r with
      | [] => [[c]]
      | d :: _ =>
        if isSpace d then [c] :: words r
        else
          match words r with
          | [] => [[c]]
          | w :: ws => (c :: w) :: ws

/-- The text without the whitespace at both ends. -/
def trim (l : Str) : Str := ((l.dropWhile isSpace).reverse.dropWhile isSpace).reverse

/-- A word: not empty and without whitespace. -/
def Word (w : Str) : Prop := w ≠ [] ∧ ∀ c ∈ w, isSpace c = false

/-- A decimal numeral. -/
def Numeral (w : Str) : Prop := w ≠ [] ∧ ∀ c ∈ w, isDigit c = true

end Kws.Spec
