/-
Model of debug messages: which ones are printed.
Source: `/repo/src/utils/DebugMessage.cc`, `/repo/src/utils/Debug.hh:114-165`.

A message exists from the first time its statement is executed (the macro has a static variable, `Debug.hh:130, 161`). The stream of a configuration is the list of its lines (`getline`).
-/
set_option autoImplicit false
namespace Verif.Debug

/-- `strstr(marker, pattern) != NULL` of the C library. -/
def strstr (pattern : List Char) : List Char → Bool
  | [] => pattern.isPrefixOf []
  | c :: cs => pattern.isPrefixOf (c :: cs) || strstr pattern cs

/-- `DebugMessage`, `DebugMessage.hh:36-75`. -/
structure Msg where
  /-- Marker. -/
  marker : List Char
  /-- Is it printed? -/
  enabled : Bool
deriving DecidableEq

/-- `allDebugMessages` and `allDebugPatterns`, `DebugMessage.cc:45, 101`. -/
structure Sys where
  /-- Messages, the latest first. -/
  msgs : List Msg
  /-- Patterns. -/
  patterns : List (List Char)

/-- `matchesPatterns`, `DebugMessage.cc:113-119`. -/
def Sys.matches (s : Sys) (marker : List Char) : Bool := s.patterns.any fun p => strstr p marker

/-- The constructor, `DebugMessage.cc:47-53`. -/
def Sys.create (s : Sys) (marker : List Char) : Sys := { s with msgs := ⟨marker, s.matches marker⟩ :: s.msgs }

/-- `enableMatchingDebugMessages`, `DebugMessage.cc:121-131`. -/
def Sys.enable (s : Sys) (pattern : List Char) : Sys :=
  { msgs := s.msgs.map fun m => if !m.enabled && strstr pattern m.marker then { m with enabled := true } else m,
    patterns := s.patterns ++ [pattern] }

/-- `sl_whitespace`, `DebugMessage.cc:135`. -/
def white (c : Char) : Bool := c ∈ [' ', '\x0c', '\n', '\r', '\t', '\x0b']

/-- `sl_comment`, `DebugMessage.cc:136`. -/
def comment (c : Char) : Bool := c ∈ ['#', '/']

/-- The pattern in a line of a configuration, if there is one: `readDebugConfigStream`, `DebugMessage.cc:143-168`. From the first character that is not blank to the last one that is not blank before the comment; if
the first is a colon, it is left out. -/
def linePattern (line : List Char) : Option (List Char) :=
  match line.dropWhile white with
  | [] => none
  | c :: cs =>
    if comment c then none
    else
      let text := (((c :: cs).takeWhile fun c => !comment c).reverse.dropWhile white).reverse
      some (if c = ':' then text.drop 1 else text)

/-- `readDebugConfigStream`, `DebugMessage.cc:133-174`. -/
def Sys.read (s : Sys) (lines : List (List Char)) : Sys := (lines.filterMap linePattern).foldl Sys.enable s

/-- What can happen: a debug statement is executed for the first time, a configuration is read, a pattern is given by the program. `Debug.hh:129-165`, `DebugMessage.cc:121, 133`. -/
inductive Ev where
  | create (marker : List Char)
  | enable (pattern : List Char)
  | read (lines : List (List Char))

/-- One event. `DebugMessage.cc`. -/
def Sys.step (s : Sys) : Ev → Sys
  | .create m => s.create m
  | .enable p => s.enable p
  | .read ls => s.read ls

/-- A history. `DebugMessage.cc`. -/
def run (es : List Ev) : Sys := es.foldl Sys.step ⟨[], []⟩

end Verif.Debug
