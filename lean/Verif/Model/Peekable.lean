/-!
# Peekable iterators (`slash/utils/iteration.py:8-47`)
-/
namespace Slash.Peekable

variable {α : Type}

/-- What a call that asks for an element comes to: an element, StopIteration, or another exception (`utils/iteration.py:20-40`). -/
inductive Got (α : Type) where
  | item (a : α) | stop | raised (e : Nat)
deriving DecidableEq, Repr

/-- `PeekableIterator`, `utils/iteration.py:8-16`. The wrapped iterator is a sequence of elements and exceptions with a position; it
may be infinite; on StopIteration the position does not advance, on another exception it does (the sequence of a generator that
raises goes on with StopIteration). `peeked`: `none` is `_NOTHING`, `some none` is `_END`. -/
structure St (α : Type) where
  seq : Nat → Got α
  pos : Nat := 0
  peeked : Option (Option α) := none

/-- `next(self._iterator)` of the wrapped iterator, `utils/iteration.py:27,37`. -/
def St.advance (st : St α) : Got α × St α :=
  match st.seq st.pos with
  | .stop => (.stop, st)
  | g => (g, { st with pos := st.pos + 1 })

/-- `next`, `utils/iteration.py:20-28`. -/
def St.next (st : St α) : Got α × St α :=
  match st.peeked with
  | some (some a) => (.item a, { st with peeked := none })
  | some none => (.stop, { st with peeked := none })
  | none => st.advance

/-- `peek`, `utils/iteration.py:35-40`: `next(iterator, _END)` turns StopIteration into `_END`; if it raises, nothing is assigned. -/
def St.peek (st : St α) : Got α × St α :=
  match st.peeked with
  | some (some a) => (.item a, st)
  | some none => (.stop, st)
  | none =>
    match st.advance with
    | (.item a, st) => (.item a, { st with peeked := some (some a) })
    | (.stop, st) => (.stop, { st with peeked := some none })
    | (.raised e, st) => (.raised e, st)

/-- What a call shows to its caller (`utils/iteration.py:20-47`). -/
inductive Obs (α : Type) where
  | got (g : Got α) | none | flag (b : Bool)
deriving DecidableEq, Repr

/-- `has_next`, `utils/iteration.py:42-47`. -/
def St.hasNext (st : St α) : Obs α × St α :=
  match st.peek with
  | (.item _, st) => (.flag true, st)
  | (.stop, st) => (.flag false, st)
  | (.raised e, st) => (.got (.raised e), st)

/-- `peek_or_none`, `utils/iteration.py:30-33`. -/
def St.peekOrNone (st : St α) : Obs α × St α :=
  match st.hasNext with
  | (.flag true, st) => let (g, st) := st.peek; (.got g, st)
  | (.flag false, st) => (.none, st)
  | (o, st) => (o, st)

/-- The public methods, `utils/iteration.py:17-47`. -/
inductive Op where
  | next | peek | hasNext | peekOrNone
deriving DecidableEq, Repr

/-- One call, `utils/iteration.py:20-47`. -/
def step (st : St α) : Op → Obs α × St α
  | .next => let (r, st) := st.next; (.got r, st)
  | .peek => let (r, st) := st.peek; (.got r, st)
  | .hasNext => st.hasNext
  | .peekOrNone => st.peekOrNone

/-- The results of a sequence of calls, `utils/iteration.py:20-47`. -/
def run (st : St α) : List Op → List (Obs α)
  | [] => []
  | op :: ops => let (o, st) := step st op; o :: run st ops

end Slash.Peekable
