import Verif.Pre
/-
Model of `src/generator/parsemessages.go`, a program that reads a proto file line by line and prints the names of the headers that the
generator writes for it, each with a semicolon after it.

Go's library is modelled as documented: `bufio.Scanner` with `ScanLines`, `regexp`, `strings`, `path`. Simplification: texts are lists of characters (text that is not
UTF-8 is left out), reading a file that was opened does not fail.
-/
namespace QtPb.GoList
open Gen

/-! ### Lines -/

/-- The parts of a text that end with a line feed, without it, and what is after the last line feed, if anything (`bufio.ScanLines`); `cur` is the line so far. -/
def rawLines (cur : Str) : Str → List Str
  | [] => if cur = [] then [] else [cur]
  | c :: s => if c = '\n' then cur :: rawLines [] s else rawLines (cur ++ [c]) s

/-- `bufio.ScanLines` drops a carriage return at the end of a line. -/
def dropCR (line : Str) : Str := if line.getLast? = some '\r' then line.dropLast else line

/-- A line for which the buffer of `bufio.Scanner` (`MaxScanTokenSize`, 65536 bytes) is too small: `Scan` returns false and stays so. -/
def tooLong (line : Str) : Bool := decide (65536 ≤ (line.map Char.utf8Size).sum)

/-- What `scanner.Text()` is in the loops (parsemessages.go:54-55, 71-72, 96-97). -/
def scanned (text : Str) : List Str := ((rawLines [] text).takeWhile fun l => !tooLong l).map dropCR

/-- `scanner.Err() != nil` after the loop (parsemessages.go:127). -/
def scanFails (text : Str) : Bool := (rawLines [] text).any tooLong

/-! ### Regular expressions -/

/-- `\s` -/
def isSpace (c : Char) : Bool := c = ' ' || c = '\t' || c = '\n' || c = '\x0c' || c = '\r'

/-- `[a-zA-Z0-9_]` -/
def isNameChar (c : Char) : Bool := c.isAlphanum || c = '_'

/-- `^key\s+([a-zA-Z0-9_]+)` (parsemessages.go:37, 42, 86): `capture[1]`. -/
def findKey (key line : Str) : Option Str :=
  if key.isPrefixOf line then
    let r := line.drop key.length
    let name := (r.dropWhile isSpace).takeWhile isNameChar
    if r.takeWhile isSpace = [] ∨ name = [] then none else some name
  else none

/-- `^package\s+(.+);` (parsemessages.go:47): `capture[1]`. The dots take all up to the last semicolon; if nothing is left for them, they take the last space, provided that there are two. -/
def findPackage (line : Str) : Option Str :=
  if Pre.kwPackage.isPrefixOf line then
    let r := line.drop Pre.kwPackage.length
    let ws := r.takeWhile isSpace
    if ws = [] then none
    else match beforeLast ';' (r.dropWhile isSpace) with
      | none => none
      | some [] => if 2 ≤ ws.length then some (ws.drop (ws.length - 1)) else none
      | some p => some p
  else none

/-! ### The program -/

/-- `fullpath` (parsemessages.go:52-63): the first line that matches counts. `strings.Split` at dots and `strings.Join` with slashes change the dots. -/
def fullpath (lines : List Str) : Str :=
  match lines.findSome? findPackage with
  | some p => p.map (fun c => if c = '.' then '/' else c) ++ ['/']
  | none => []

/-- What is printed for a line with `MULTI` (parsemessages.go:73-81). `strings.ToLower` of the characters of names. -/
def multiLine (full line : Str) : List Str :=
  (match findKey Pre.kwMessage line with
    | some n => [full ++ toLower n ++ kH]
    | none => []) ++
  (match findKey Pre.kwService line with
    | some n => [full ++ toLower n ++ kClient ++ kH]
    | none => [])

/-- `path.Base` and `strings.TrimSuffix(basename, filepath.Ext(basename))` (parsemessages.go:90-91). Simplification: a path does not end with a slash. -/
def basename (path : Str) : Str :=
  let n := (afterLast '/' path).getD path
  (beforeLast '.' n).getD n

/-- What is printed without `MULTI` (parsemessages.go:92-124). -/
def single (folder : Bool) (path full : Str) (lines : List Str) : List Str :=
  let messageFound := lines.any fun l => (findKey Pre.kwMessage l).isSome || (findKey Pre.kwEnum l).isSome
  let serviceFound := lines.any fun l => (findKey Pre.kwService l).isSome
  let dir := if folder then full else []
  (if messageFound then [dir ++ basename path ++ kQpb ++ kH] else []) ++ (if serviceFound then [dir ++ basename path ++ kGrpc ++ kQpb ++ kH] else [])

/-- `main` (parsemessages.go:14-130): the arguments after the name of the program, and what opening a file gives. The names that are printed, and the exit code. -/
def main (args : List Str) (files : Str → Option Str) : List Str × Nat :=
  match args with
  | [] => ([], 1)
  | path :: options =>
    let multi := options.contains kMulti
    let folder := multi || options.contains kFolder
    match files path with
    | none => ([], 1)
    | some text =>
      let lines := scanned text
      let full := fullpath lines
      let out := if multi then lines.flatMap (multiLine full) else single folder path full lines
      (out, if scanFails text then 1 else 0)

/-- What is written to the standard output (parsemessages.go:75, 80, 113-123). -/
def output (names : List Str) : Str := names.flatMap fun n => n ++ [';']

end QtPb.GoList
