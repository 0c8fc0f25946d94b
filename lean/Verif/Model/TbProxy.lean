/-!
# Tracebacks of handled exceptions: `slash/utils/traceback_proxy.py:155-181`, `slash/exception_handling.py:72-99,117-130`
-/
namespace Slash.Tb

/-- A frame of the interpreter at a line, `traceback_proxy.py:74-81`. -/
structure Pos where
  frame : Nat
  line : Nat
deriving DecidableEq, Repr

/-- A traceback object, of Python or a `TracebackProxy`: `tb_frame` with `tb_lineno`, and `tb_next`, `traceback_proxy.py:69-135`. The reference
counts that the proxy keeps by hand are left out. -/
structure Node where
  pos : Pos
  next : Option Nat
deriving DecidableEq, Repr

/-- All traceback objects; a traceback is the number of its first one, `traceback_proxy.py:62-67`. -/
abbrev Heap := List Node

/-- `current.tb_next = …`, `traceback_proxy.py:90-102`. -/
def Heap.link (h : Heap) (i : Nat) (next : Nat) : Heap := h.modify i (fun n => { n with next := some next })

/-- The loop over the frames after the first, `traceback_proxy.py:177-179`: a new object for each, linked from the one before. -/
def copyFrames (h : Heap) (current : Nat) : List Pos → Heap × Nat
  | [] => (h, current)
  | p :: l => copyFrames (Heap.link (h ++ [⟨p, none⟩]) current h.length) h.length l

/-- `create_traceback_proxy` without a traceback, `traceback_proxy.py:172-181`; `stack`: what `inspect.stack()` gives, the innermost frame (this
function) first. `none`: an `IndexError`, no frames being left. -/
def fromStack (h : Heap) (stack : List Pos) (correction : Nat) : Option (Heap × Nat × Nat) :=
  match (stack.drop (correction + 1)).reverse with
  | [] => none
  | p :: l =>
    let r := copyFrames (h ++ [⟨p, none⟩]) h.length l
    some (r.1, h.length, r.2)

/-- The loop over the objects after the first of a traceback, `traceback_proxy.py:168-171`; `fuel` bounds its length. -/
def copyTb : Nat → Heap → Nat → Option Nat → Heap × Nat
  | 0, h, current, _ => (h, current)
  | _ + 1, h, current, none => (h, current)
  | fuel + 1, h, current, some i =>
    match h[i]? with
    | none => (h, current)
    | some n => copyTb fuel (Heap.link (h ++ [⟨n.pos, none⟩]) current h.length) h.length n.next

/-- `create_traceback_proxy(tb)` with its default correction, `traceback_proxy.py:164-171,181`. -/
def fromTb (h : Heap) (tb : Nat) : Option (Heap × Nat × Nat) :=
  match h[tb]? with
  | none => none
  | some n =>
    let r := copyTb h.length (h ++ [⟨n.pos, none⟩]) h.length n.next
    some (r.1, h.length, r.2)

/-- `fake_tbs` of `handling_exceptions`, `exception_handling.py:84-92`: the first and the last object. `none`: there are no frames above the
one with the `with` statement, or the argument `fake_traceback` is false. -/
def enter (h : Heap) (fake : Bool) (stack : List Pos) : Heap × Option (Nat × Nat) :=
  if fake then
    match fromStack h stack 2 with
    | none => (h, none)
    | some (h, first, last) => (h, some (first, last))
  else (h, none)

/-- The traceback that is given to the handlers of exceptions, `exception_handling.py:125-130`; `tb`: the one Python gives, from the frame with the
`with` statement to the one that raised. -/
def handled (h : Heap) (fake : Option (Nat × Nat)) (tb : Nat) : Heap × Nat :=
  match fake with
  | none => (h, tb)
  | some (first, last) =>
    match fromTb h tb with
    | none => (h, tb)
    | some (h, second, _) => (Heap.link h last second, first)

end Slash.Tb
