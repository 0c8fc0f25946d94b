/-!
# Id allocation (`slash/utils/id_space.py`, `slash/core/metadata.py:89-92`)
-/
namespace Slash.IdSpace

/-- `IDSpace`, `utils/id_space.py:5-12`: the normalised base and the counter of the generator.
Strings are lists of characters. -/
structure Space where
  base : List Char
  next : Nat
deriving DecidableEq, Repr

/-- `IDSpace.__init__`, `utils/id_space.py:6-10`. -/
def Space.new (base : List Char) : Space :=
  { base := if base.getLast? = some '_' then base else base ++ ['_'], next := 1 }

/-- `allocate`, `utils/id_space.py:11-12`. -/
def Space.allocate (s : Space) : List Char × Space :=
  (s.base ++ Nat.toDigits 10 s.next, { s with next := s.next + 1 })

/-- `n` calls of `allocate`, `utils/id_space.py:11-12`. -/
def Space.allocateN : Nat → Space → List (List Char) × Space
  | 0, s => ([], s)
  | n + 1, s =>
    let (i, s) := s.allocate
    let (l, s) := Space.allocateN n s
    (i :: l, s)

/-- Tests and their ids: `Metadata.id`, `core/metadata.py:40,89-92`. -/
structure Ids where
  space : Space
  ids : Nat → Option (List Char) := fun _ => none

/-- `Metadata.allocate_id` for test `t`, `core/metadata.py:89-92`; `false` = SlashInternalError. -/
def Ids.allocateId (s : Ids) (t : Nat) : Bool × Ids :=
  match s.ids t with
  | some _ => (false, s)
  | none =>
    let (i, sp) := s.space.allocate
    (true, { space := sp, ids := fun t' => if t' = t then some i else s.ids t' })

/-- A history of id requests, `core/metadata.py:89-92`. -/
def Ids.run (ts : List Nat) (s : Ids) : Ids := ts.foldl (fun s t => (s.allocateId t).2) s

end Slash.IdSpace
