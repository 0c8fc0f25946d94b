/-!
# Hooks defined by users: `slash/hooks.py:7-19,77-126`

Hooks live in the group `slash` of the library `gossip`; `slash.hooks` makes each of them an attribute of its module, so that it can be
called as `slash.hooks.name()`.

Simplifications: of `gossip` only names, handlers and definitions are modelled: a name can be defined once, a lookup of a name that is
not defined raises a `LookupError`, handlers can be registered for defined hooks only (the group is strict, `hooks.py:74`), and
`undefine` removes a hook with its handlers. Names have no dots in them.
-/
namespace Slash.CHook

/-- Names of hooks and attributes, `hooks.py:16-18`. -/
abbrev Name := List Char

/-- A hook object: its identity and its handlers, `hooks.py:17`. -/
structure Hook where
  id : Nat
  handlers : List Nat := []
deriving DecidableEq, Repr

/-- What a global name of `slash.hooks` is bound to: a hook, or something of the module itself, like the function `register`
(`hooks.py:7-126`). -/
inductive Attr where
  | hook (id : Nat)
  | own
deriving DecidableEq, Repr

/-- The hooks of the group `slash` and the global names of `slash.hooks`, `hooks.py:17-18`. -/
structure St where
  next : Nat := 0
  hooks : Name → Option Hook := fun _ => none
  attrs : Name → Option Attr := fun _ => none

/-- Exceptions: the name is used already, `LookupError`, and `KeyError` of `globals().pop` (`hooks.py:106`). -/
inductive Err where
  | used | lookup | key
deriving DecidableEq, Repr

/-- `gossip.define`, called in `hooks.py:17`. -/
def gossipDefine (n : Name) (s : St) : Except Err Nat × St :=
  match s.hooks n with
  | some _ => (.error .used, s)
  | none => (.ok s.next, { s with next := s.next + 1, hooks := fun m => if m = n then some { id := s.next } else s.hooks m })

/-- `_define`, `hooks.py:16-19`. -/
def define (n : Name) (s : St) : Except Err Nat × St :=
  match gossipDefine n s with
  | (.error e, s) => (.error e, s)
  | (.ok i, s) => (.ok i, { s with attrs := fun m => if m = n then some (.hook i) else s.attrs m })

/-- `add_custom_hook`, `hooks.py:84-88`. -/
def add (n : Name) (s : St) : Except Err Nat × St := define n s

/-- `get_hook_by_name`, `hooks.py:122-126`. -/
def getByName (n : Name) (s : St) : Except Err Nat :=
  match s.hooks n with
  | some h => .ok h.id
  | none => .error .lookup

/-- `ensure_custom_hook`, `hooks.py:91-98`. -/
def ensure (n : Name) (s : St) : Except Err Nat × St :=
  match getByName n s with
  | .ok i => (.ok i, s)
  | .error _ => define n s

/-- `Hook.undefine` of `gossip`, called in `hooks.py:105`. -/
def undefine (n : Name) (s : St) : St := { s with hooks := fun m => if m = n then none else s.hooks m }

/-- `remove_custom_hook`, `hooks.py:101-106`. -/
def remove (n : Name) (s : St) : Except Err Unit × St :=
  match s.hooks n with
  | none => (.error .lookup, s)
  | some _ =>
    match s.attrs n with
    | none => (.error .key, undefine n s)
    | some _ => (.ok (), { undefine n s with attrs := fun m => if m = n then none else s.attrs m })

/-- `gossip.register` and `slash.hooks.register`, `hooks.py:7-10`. -/
def register (n : Name) (f : Nat) (s : St) : Except Err Unit × St :=
  match s.hooks n with
  | none => (.error .lookup, s)
  | some h => (.ok (), { s with hooks := fun m => if m = n then some { h with handlers := h.handlers ++ [f] } else s.hooks m })

/-- What calling `slash.hooks.name()` does (`hooks.py:18`): the handlers that are called; `none` if there is no such attribute or it is
not a hook. A hook that was undefined calls nothing. -/
def call (n : Name) (s : St) : Option (List Nat) :=
  match s.attrs n with
  | some (.hook i) =>
    match s.hooks n with
    | some h => if h.id = i then some h.handlers else some []
    | none => some []
  | _ => none

/-- What users do with `slash.hooks` (`hooks.py:7-10,84-106`) and with `gossip` itself. -/
inductive Op where
  | add (n : Name)
  | ensure (n : Name)
  | remove (n : Name)
  | register (n : Name) (f : Nat)
  | gossip (n : Name)
deriving DecidableEq, Repr

/-- One operation of `hooks.py:7-10,84-106`; exceptions are caught by the user. -/
def step (s : St) : Op → St
  | .add n => (add n s).2
  | .ensure n => (ensure n s).2
  | .remove n => (remove n s).2
  | .register n f => (register n f s).2
  | .gossip n => (gossipDefine n s).2

/-- The module once it is imported: the names of its own, and the hooks it defines, `hooks.py:7-75`. -/
def imported (own builtin : List Name) : St :=
  builtin.foldl (fun s n => (define n s).2) { attrs := fun n => if n ∈ own then some .own else none }

end Slash.CHook
