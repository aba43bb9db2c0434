import Verif.Model.Prelude
/-!
# path/filepath pieces (unix)
-/
namespace Telefacts

/-- Part of a reversed file name from the last dot on: the loop of `filepath.Ext` scanning from the
end, stopping at a separator. Argument: reversed characters; accumulator: suffix seen so far. -/
def extAux : List Char → List Char → List Char
  | [], _ => []
  | c :: cs, acc => if c = '/' then [] else if c = '.' then '.' :: acc else extAux cs (c :: acc)

/-- `filepath.Ext` -/
def fileExt (s : String) : String := String.ofList (extAux s.toList.reverse [])

/-- `filepath.Base` on reversed characters: drop trailing separators, keep up to the next separator. -/
def fileBaseL (r : List Char) : List Char :=
  ((r.dropWhile (· = '/')).takeWhile (· ≠ '/')).reverse

/-- `filepath.Base` -/
def fileBase (s : String) : String :=
  if s = "" then "."
  else
    let b := fileBaseL s.toList.reverse
    if b = [] then "/" else String.ofList b

end Telefacts
