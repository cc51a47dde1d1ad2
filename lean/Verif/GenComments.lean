import Verif.GenText
/-
Model of the comments that the generator copies from the proto file into the generated code: `BasePrinter::printComments`
(src/generator/baseprinter.h:63-93), the helpers of utils.h that it uses, and `google::protobuf::io::Printer` as documented
(variables between `$` signs, indentation of lines).
-/
namespace QtPb.Gen.Comments
open QtPb.Gen

/-- The characters that are trimmed (utils.h:115, 122). -/
def isSpace (c : Char) : Bool := c == ' ' || c == '\t' || c == '\n' || c == '\r' || c == '\x0c' || c == '\x0b'

/-- `utils::ltrim` (utils.h:120-124). -/
def ltrim (s : Str) : Str := s.dropWhile isSpace

/-- `utils::rtrim` (utils.h:113-117). -/
def rtrim (s : Str) : Str := (s.reverse.dropWhile isSpace).reverse

/-- `utils::trim` (utils.h:127-130). -/
def trim (s : Str) : Str := ltrim (rtrim s)

/-- `utils::replace` (utils.h:70-76): from left to right, continuing behind what was put in. The first argument counts the
characters of an occurrence that are still to be passed over. -/
def replaceFrom (pattern to : Str) : Nat → Str → Str
  | _, [] => []
  | n + 1, _ :: s => replaceFrom pattern to n s
  | 0, c :: s => if pattern.isPrefixOf (c :: s) then to ++ replaceFrom pattern to (pattern.length - 1) s else c :: replaceFrom pattern to 0 s

/-- `utils::replace` (utils.h:70-76). -/
def replace (pattern to s : Str) : Str := replaceFrom pattern to 0 s

/-! ### google::protobuf::io::Printer -/

/-- The name of a variable up to the closing `$`, and what follows; none if there is no closing `$`. -/
def varName : Str → Option (Str × Str)
  | [] => none
  | c :: s => if c = '$' then some ([], s) else (varName s).map fun r => (c :: r.1, r.2)

/-- `Printer::Print(text)` without variables: `$$` stands for `$`; any other `$` begins the name of a variable, and there is none: the
Printer reports "Undefined variable" or "Unclosed variable name" with GOOGLE_LOG(DFATAL), here none. The first argument bounds the
length. -/
def substitute : Nat → Str → Option Str
  | 0, _ => some []
  | _ + 1, [] => some []
  | n + 1, c :: s =>
    if c = '$' then
      match varName s with
      | some ([], rest) => (substitute n rest).map ('$' :: ·)
      | _ => none
    else (substitute n s).map (c :: ·)

/-- `Printer::Print(text)`: what goes to the writer of lines. -/
def printText (text : Str) : Option Str := substitute (text.length + 1) text

/-- The writer of lines of the Printer: the indentation is put in front of the first character of a line, if that is no newline. -/
def emit (indent : Nat) : Bool → Str → Str
  | _, [] => []
  | start, c :: s =>
    if c = '\n' then '\n' :: emit indent true s
    else (if start then List.replicate indent ' ' else []) ++ c :: emit indent false s

/-! ### printComments -/

/-- `"\n/*"` and `" */"` (baseprinter.h:82, 92). -/
def kOpen : Str := ['\n', '/', '*']
def kClose : Str := [' ', '*', '/']

/-- What is printed between the delimiters, for the trimmed comment (baseprinter.h:72-91). -/
def bodyText (t : Str) : List Str :=
  let single := !t.contains '\n'
  let t' := match t with
    | [] => []
    | c :: _ => if c ≠ '!' ∧ c ≠ '*' ∧ c ≠ ' ' then (if single then [] else ['\n']) ++ ' ' :: t else t
  if single then [t']
  else
    let r := replace ['\n'] ['\n', ' ', '*'] t'
    if r.getLast? ≠ some '\n' then [r, ['\n']] else [r]

/-- The arguments of the calls of `Print` in `printComments` (baseprinter.h:63-93); `enabled` is the option COMMENTS. -/
def printCalls (enabled : Bool) (comment : Str) : List Str :=
  if !enabled then []
  else
    let t := trim comment
    if t = [] then [] else [kOpen] ++ bodyText t ++ [kClose]

/-- The calls one after the other. -/
def printAll : List Str → Option Str
  | [] => some []
  | t :: ts => (printText t).bind fun a => (printAll ts).map fun b => a ++ b

/-- `BasePrinter::printComments` (baseprinter.h:63-93): the text that is added to the file; `start` says whether a line begins. -/
def printComments (enabled : Bool) (indent : Nat) (start : Bool) (comment : Str) : Option Str :=
  (printAll (printCalls enabled comment)).map (emit indent start)

end QtPb.Gen.Comments
