import Verif.Model.Conversion

/-
database/can/c_source.py: names in the generated C code.

Strings are lists of characters.  Upper and lower case are those of ASCII; python also maps other
characters, but `_canonical` replaces them by underscores (except the few, like the Kelvin sign,
whose lower case is an ASCII letter).
-/

namespace Cantools.C
open Cantools

def isUpperAZ (c : Char) : Bool := 'A' ≤ c && c ≤ 'Z'
def isLowerAZ (c : Char) : Bool := 'a' ≤ c && c ≤ 'z'
def isDigit09 (c : Char) : Bool := '0' ≤ c && c ≤ '9'

/-- c_source.py:839-844 `_canonical`. -/
def canonical (l : List Char) : List Char :=
  l.map fun c => if isLowerAZ c || isUpperAZ c || isDigit09 c then c else '_'

/-- c_source.py:848 `re.sub(r'(.)([A-Z][a-z]+)', r'\1_\2', value)`: matches are found from left to
right and do not overlap.  The first argument bounds the number of rounds. -/
def splitWords : Nat → List Char → List Char
  | 0, l => l
  | fuel + 1, c :: u :: l :: r =>
    if c != '\n' && isUpperAZ u && isLowerAZ l then
      c :: '_' :: u :: ((l :: r).takeWhile isLowerAZ ++ splitWords fuel ((l :: r).dropWhile isLowerAZ))
    else c :: splitWords fuel (u :: l :: r)
  | _ + 1, l => l

/-- c_source.py:849 `re.sub(r'(_+)', '_', value)`. -/
def squeeze : List Char → List Char
  | [] => []
  | [c] => [c]
  | c :: d :: r => if c = '_' ∧ d = '_' then squeeze (d :: r) else c :: squeeze (d :: r)

/-- c_source.py:850 `re.sub(r'([a-z0-9])([A-Z])', r'\1_\2', value)`.  (A match ends with an upper
case letter, which cannot start the next one.) -/
def splitHumps : List Char → List Char
  | [] => []
  | [c] => [c]
  | c :: d :: r =>
    if (isLowerAZ c || isDigit09 c) && isUpperAZ d then c :: '_' :: splitHumps (d :: r)
    else c :: splitHumps (d :: r)

/-- c_source.py:847-853 `camel_to_snake_case`. -/
def camelToSnake (l : List Char) : List Char :=
  canonical ((splitHumps (squeeze (splitWords l.length l))).map Char.toLower)

/-- c_source.py:717-718: `while name in unique_choices.values(): name += '_'`.  The first argument
bounds the number of rounds; after as many rounds as there are names in use a fresh one is found. -/
def appendUntil (used : List (List Char)) : Nat → List Char → List Char
  | 0, n => n
  | fuel + 1, n => if n ∈ used then appendUntil used fuel (n ++ ['_']) else n

/-- c_source.py:697-700. -/
def choiceItems (choices : Choices) : List (Int × List Char) :=
  choices.map fun e => (e.1, (camelToSnake e.2.toStr.toList).map Char.toUpper)

/-- c_source.py:713-720: one round of the loop. -/
def uniqueStep (names : List (List Char)) (acc : List (Int × List Char)) (e : Int × List Char) :
    List (Int × List Char) :=
  if 1 < names.count e.2 then
    dictSet acc e.1
      (appendUntil (acc.map (·.2)) acc.length (e.2 ++ canonical ('_' :: (toString e.1).toList)))
  else acc

/-- c_source.py:689-722 `unique_choices`. -/
def uniqueChoices (choices : Choices) : List (Int × List Char) :=
  (choiceItems choices).foldl (uniqueStep ((choiceItems choices).map (·.2)))
    ((choiceItems choices).filter fun e => ((choiceItems choices).map (·.2)).count e.2 = 1)

end Cantools.C
