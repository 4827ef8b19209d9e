import Verif.Model.Outcome
/-!
# Configuration: `/repo/src/Configuration/Configuration.cpp`, `Configuration.hpp`

Strings are `List Char`. `std::unordered_map` is an association list with unique keys
(only membership, lookup, insert and erase are used).
-/
namespace Verif.Config

abbrev Str := List Char

/-- `std::transform(…, ::tolower)` in the C locale, Configuration.cpp:73, hpp:67, 101, 136
(simplification: bytes are characters, only `A`–`Z` change). -/
def lower (s : Str) : Str := s.map Char.toLower

/-- Members of `Configuration`, Configuration.hpp:50-51. -/
structure Config where
  map : List (Str × Str) := []
  order : List Str := []
  deriving DecidableEq, Repr

/-- `configMap.at(key)` / `configMap.count(key)`. -/
def Config.find (c : Config) (k : Str) : Option Str := c.map.lookup k

/-- `add2map`, Configuration.cpp:15-26. -/
def Config.add2map (c : Config) (k v : Str) (overwrite : Bool) : Config :=
  match c.find k with
  | none => { map := (k, v) :: c.map, order := c.order ++ [k] }
  | some _ =>
    if overwrite then
      { map := (k, v) :: c.map.filter (fun p => p.1 ≠ k), order := c.order }
    else c

/-- Position of the first `ch`, `std::string::find_first_of`; `none` is `npos`. -/
def firstPos (ch : Char) (s : Str) : Option Nat := s.findIdx? (· = ch)

/-- One line of `readFromFile`, Configuration.cpp:56-76: `none` if the line is skipped or has
no `=`, otherwise name and value before the 2D rule. `len` is a `size_t`: if the comment
starts before the `=` the subtraction wraps to a number larger than any line, and `substr`
then takes the rest of the line. (`commentPos2` always equals `commentPos1`.) -/
def parseLine (line : Str) : Option (Str × Str) :=
  let go (lineEnd : Nat) : Option (Str × Str) :=
    match firstPos '=' line with
    | none => none
    | some eq =>
      let name := line.take eq
      let len := if eq + 1 ≤ lineEnd then lineEnd - (eq + 1) else line.length
      some (lower name, (line.drop (eq + 1)).take len)
  match firstPos '#' line with
  | none => go line.length
  | some 0 => none
  | some (p + 1) => go (p + 1)

/-- The literal compared with in Configuration.cpp:75: `2D` and 14 blanks. -/
def lit2D : Str := "2D              ".toList

/-- Body of the loop, Configuration.cpp:55-82. State: configuration and `flag2D`. -/
def stepLine (overwrite : Bool) (s : Config × Bool) (line : Str) : Config × Bool :=
  match parseLine line with
  | none => s
  | some (name, val) =>
    let flag := s.2 || (name = "dimension".toList && val = lit2D)
    let val := if name = "nz".toList && flag then ['1'] else val
    (s.1.add2map name val overwrite, flag)

/-- `readFromFile`, Configuration.cpp:45-86, on the lines of an existing file. -/
def Config.readFromFile (c : Config) (lines : List Str) (overwrite : Bool) : Config :=
  (lines.foldl (stepLine overwrite) (c, false)).1

/-- Constructor from a file, Configuration.cpp:97-100. -/
def ofFile (lines : List Str) : Config := ({} : Config).readFromFile lines true

/-- `add2config`, Configuration.hpp:64-74; `v` is the value as streamed to a string. -/
def Config.add2config (c : Config) (k v : Str) (overwrite : Bool) : Config :=
  c.add2map (lower k) v overwrite

/-- `get`, Configuration.hpp:95-108. `parse` is the stream extraction of the return type
(simplification: total; what extraction leaves in `temp` on failure is up to `parse`). -/
def Config.get {R : Type} (parse : Str → R) (c : Config) (name : Str) : Out R :=
  match c.find (lower name) with
  | none => .err
  | some v => .ok (parse v)

/-- `getAndCatch`, Configuration.hpp:130-143. -/
def Config.getAndCatch {R : Type} (parse : Str → R) (c : Config) (name : Str) (dflt : R) : R :=
  match c.find (lower name) with
  | none => dflt
  | some v => parse v

/-- `input >> std::string`: first white-space delimited token. -/
def token (s : Str) : Str :=
  ((s.dropWhile Char.isWhitespace).takeWhile (fun ch => !ch.isWhitespace))

/-- `print`, Configuration.cpp:106-114, as the list of printed pairs; `configMap.at` throws
for a name that is not stored. -/
def Config.print (c : Config) : Out (List (Str × Str)) :=
  c.order.foldr (fun k acc => do
    let r ← acc
    match c.find k with
    | none => .err
    | some v => pure ((k, v) :: r)) (.ok [])

end Verif.Config
