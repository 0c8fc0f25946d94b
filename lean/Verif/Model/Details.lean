import Verif.Model.Console
/-!
# Source lines, reasons and details shown with results, and the number of collected tests:
`slash/reporting/console_reporter.py:154-171,305-367`, `slash/utils/traceback_utils.py:151-154`

Simplifications: a source file is the list of its lines as `linecache` gives them, with the `\n` at their ends. Colors are left out.
Reasons that are no strings, and values of details, are seen through what `repr` gives.
-/
namespace Slash.Console

/-- `linecache.getline`, as used in `traceback_utils.py:151,153`: nothing for lines that are not there. -/
def getLine (file : List (List Char)) (n : Nat) : List Char := if n = 0 then [] else (file[n - 1]?).getD []

/-- White space at the end, for `rstrip`, `traceback_utils.py:151`. -/
def isBlank (c : Char) : Bool := c == ' ' || c == '\t' || c == '\n' || c == '\r' || c == Char.ofNat 11 || c == Char.ofNat 12

/-- `str.rstrip`, `traceback_utils.py:151`. -/
def rstrip (s : List Char) : List Char := (s.reverse.dropWhile isBlank).reverse

/-- `code_line`, `traceback_utils.py:151`. -/
def codeLine (file : List (List Char)) (lineno : Nat) : List Char := rstrip (getLine file lineno)

/-- `code_string`, `traceback_utils.py:152-154`: from the first line of the code of the function; empty for `None`. -/
def codeString (file : List (List Char)) (first lineno : Nat) : List Char :=
  ((List.range (lineno + 1 - first)).map fun i => getLine file (first + i)).flatten

/-- What `str.splitlines` takes as the end of a line, `console_reporter.py:322,350`. -/
def isBreak (c : Char) : Bool :=
  c == '\n' || c == '\r' || (c.toNat ≥ 11 && c.toNat ≤ 12) || (c.toNat ≥ 0x1c && c.toNat ≤ 0x1e) || c.toNat == 0x85 || c.toNat == 0x2028 || c.toNat == 0x2029

/-- `str.splitlines`, `console_reporter.py:322,350`; the first argument is the line being read. (`\r\n` does not occur in what `linecache`
gives.) -/
def splitLines (cur : List Char) : List Char → List (List Char)
  | [] => if cur = [] then [] else [cur]
  | c :: l => if isBreak c then cur :: splitLines [] l else splitLines (cur ++ [c]) l

/-- The loop of `_write_frame_code`, `console_reporter.py:354-366`: lines with whether they are marked. -/
def markLast : List (List Char) → List (Bool × List Char)
  | [] => []
  | [l] => [(true, l)]
  | l :: l' :: ls => (false, l) :: markLast (l' :: ls)

/-- `_write_frame_code`, `console_reporter.py:347-367`. -/
def frameCode (file : List (List Char)) (first lineno : Nat) (context : Bool) : List (Bool × List Char) :=
  if codeString file first lineno = [] then []
  else markLast (if context then splitLines [] (codeString file first lineno) else [codeLine file lineno])

/-- `'\n'.join`, `', '.join`, `console_reporter.py:322,328`. -/
def joinWith (sep : List Char) : List (List Char) → List Char
  | [] => []
  | [a] => a
  | a :: b :: l => a ++ sep ++ joinWith sep (b :: l)

/-- `_indent_with`, `console_reporter.py:319-322`. -/
def indentWith (text : List Char) (n : Nat) : List Char :=
  joinWith ['\n'] ((splitLines [] text).map (List.replicate n ' ' ++ ·))

/-- The reason of a skip as given to `skip_test`: a string, or another object. `console_reporter.py:326-328`. -/
inductive Reason where
  | str (s : List Char)
  | other
deriving DecidableEq, Repr

/-- `', '.join(skip_reasons)`, `console_reporter.py:328`; `none`: `TypeError`. -/
def reasonTexts : List Reason → Option (List (List Char))
  | [] => some []
  | .str s :: l => (reasonTexts l).map (s :: ·)
  | .other :: _ => none

/-- `_report_result_skip_summary`, `console_reporter.py:324-331`; a reason that is `None` is `none`. -/
def skipSummary (skips : List (Option Reason)) : Option (List Char) :=
  if skips.filterMap id = [] then some "\tSkipped\n".toList
  else (reasonTexts (skips.filterMap id)).map fun l => "\tSkipped (".toList ++ joinWith ", ".toList l ++ ")\n".toList

/-- `_report_additional_test_details`, `console_reporter.py:305-317`, for details with the `repr` of their values, and the path of the log. -/
def additionalDetails (success : Bool) (details : List (List Char × List Char)) (log : Option (List Char)) : List (List Char) :=
  if success then []
  else
    match details ++ (match log with | some p => [("Log".toList, p)] | none => []) with
    | [] => []
    | l => " - Additional Details:\n".toList :: l.map fun x => "    > ".toList ++ x.1 ++ ": ".toList ++ x.2 ++ "\n".toList

/-- The text of `_report_num_collected`, `console_reporter.py:170-171`. -/
def collectedText (n : Nat) (still : Bool) : List Char :=
  Nat.toDigits 10 n ++ " tests collected".toList ++ (if still then "...".toList else "   \n".toList)

/-- `_report_num_collected`, `console_reporter.py:163-171`: what is written. -/
def numCollected (tty : Bool) (n : Nat) (still : Bool) : List Char :=
  if tty then '\r' :: collectedText n still
  else if still then []
  else collectedText n still

/-- What is written while `n` tests are collected, `loader.py:94-104`, `console_reporter.py:154-161`. -/
def collection (tty : Bool) (n : Nat) : List (List Char) :=
  (List.range (n + 1)).map (fun k => numCollected tty k true) ++ [numCollected tty n false]

end Slash.Console
