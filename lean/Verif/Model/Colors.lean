/-!
# Colored output: `slash/utils/cli_utils.py:124-166`, `slash/utils/color_string.py`, `slash/frontend/slash_list.py:86,92-108`
-/
namespace Slash.Col

/-- Python's strings, `cli_utils.py:127`. -/
abbrev Str := List Char

/-- What starts a code for the terminal, `cli_utils.py:143`. -/
def esc : Char := '\x1b'

/-- One code as `colorama` makes them: `ESC [ body m`, `cli_utils.py:124,143`. -/
def code (body : Str) : Str := esc :: '[' :: body ++ ['m']

/-- `COLOR_RESET`, `cli_utils.py:124`. -/
def colorReset : Str := code ['3', '9'] ++ code ['4', '9'] ++ code ['0']

/-- An argument of the printer: a `str`, or a `ColorizedString` with its style, `cli_utils.py:127-141`. -/
inductive Arg
  | plain (s : Str)
  | styled (s : Str) (style : Str)
deriving DecidableEq, Repr

/-- `make_styler(style)(string)`, `cli_utils.py:140-141`. -/
def styler (style : Str) (s : Str) : Arg := .styled s style

/-- `str(arg)`, which is also what formatting, concatenation and splitting see of a `ColorizedString`, `cli_utils.py:127-132`. -/
def Arg.str : Arg → Str
  | .plain s => s
  | .styled s _ => s

/-- `getattr(arg, 'colorize', arg.__str__)()`, `cli_utils.py:135-138,155`. -/
def Arg.colorize : Arg → Str
  | .plain s => s
  | .styled s style => if style.isEmpty then s else style ++ s ++ colorReset

/-- `print(*args)` without other keyword arguments: spaces between and a newline at the end, `cli_utils.py:157-160`. -/
def printed (l : List Str) : Str := List.intercalate [' '] l ++ ['\n']

/-- Where a text goes: the stream for reports or the one for errors, `cli_utils.py:148-149,159`. -/
inductive Stream
  | out | err
deriving DecidableEq, Repr

/-- A `Printer`, `cli_utils.py:145-152`: whether the streams are terminals, and its options; `hasErr`: a stream for errors was given. -/
structure Printer where
  outTty : Bool
  errTty : Bool
  hasErr : Bool
  output : Bool := true
  force : Bool := false
  enable : Bool := true
deriving DecidableEq, Repr

/-- `_error_stream`, `cli_utils.py:149`. -/
def Printer.errorStream (p : Printer) : Stream := if p.hasErr then .err else .out

/-- `_print`, `cli_utils.py:157-160`. -/
def Printer.write (p : Printer) (error : Bool) (l : List Str) : Stream × Str :=
  (if error then p.errorStream else .out, printed l)

/-- `Printer.__call__`, `cli_utils.py:162-166`: what is written where; nothing if output is not enabled. -/
def Printer.call (p : Printer) (error : Bool) (args : List Arg) : List (Stream × Str) :=
  if p.output then
    if p.force || (p.enable && p.outTty) then [p.write error (args.map Arg.colorize)]
    else [p.write error (args.map Arg.str)]
  else []

/-- The line for a test of `slash list`, `slash_list.py:108`: formatting gives a `str`. -/
def testLine (titleStyle address extra : Str) : Arg := .plain ((styler titleStyle address).str ++ extra)

/-! ## `color_string.py` -/

/-- A `str`, a `ColorString` and a `ColorCompoundString` of two, `color_string.py:12-16,18-22,43-47`. A color is represented by its code. -/
inductive CStr
  | text (s : Str)
  | color (s : Str) (color : Str)
  | add (a b : CStr)
deriving DecidableEq, Repr

/-- `colorama.Fore.RESET`, `color_string.py:41`. -/
def foreReset : Str := code ['3', '9']

/-- `str(x)`, `color_string.py:37-38,49-50`. -/
def CStr.str : CStr → Str
  | .text s => s
  | .color s _ => s
  | .add a b => a.str ++ b.str

/-- `len(x)`, `color_string.py:24-25,52-53`. -/
def CStr.len : CStr → Nat
  | .text s => s.length
  | .color s _ => s.length
  | .add a b => a.len + b.len

/-- `get_colored`, for a `str` the string itself, `color_string.py:40-41,58-59`. -/
def CStr.colored : CStr → Str
  | .text s => s
  | .color s c => c ++ s ++ foreReset
  | .add a b => a.colored ++ b.colored

/-- `ljust(width)` of a `ColorString`, `color_string.py:27-28`; `none`: not implemented, `color_string.py:55-56`. -/
def CStr.ljust (width : Nat) : CStr → Option CStr
  | .text s => some (.text (s ++ List.replicate (width - s.length) ' '))
  | .color s c => some (.color (s ++ List.replicate (width - s.length) ' ') c)
  | .add _ _ => none

end Slash.Col
