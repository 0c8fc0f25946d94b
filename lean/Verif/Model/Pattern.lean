/-!
# Filter expressions: `slash/utils/pattern_matching.py`, and matching of tags, `slash/core/tagging.py:94-107`

Texts are lists of characters. The grammar is the one `pyparsing.infixNotation` builds from the table in
`pattern_matching.py:74-81`: ordered alternatives, white space skipped before each element, and a prefix of the text is enough for
`parseString` (there is no `parseAll`). Parsing is recursive, so it takes an amount of fuel; running out of it is an outcome of its own,
and `Lemmas/Pattern.lean` shows that it never happens to `parse`.
-/
namespace Slash.Pat

/-- The tags of a test and their values (as `str` prints them), `tagging.py:44-49`; `none`: no value, `tagging.py:34`. -/
abbrev Tags := List (List Char × Option (List Char))

/-- What a matcher looks at, `core/metadata.py:66-84`: the address and the tags. -/
structure Meta where
  address : List Char
  tags : Tags
deriving DecidableEq, Repr

/-- `pattern in text` for strings, `pattern_matching.py:25,31`, `tagging.py:105`. -/
def isIn (w : List Char) : List Char → Bool
  | [] => w.isPrefixOf []
  | c :: t => w.isPrefixOf (c :: t) || isIn w t

/-- `pattern.split("=", 1)`, `tagging.py:95-96`; `none` if there is no `=`. -/
def splitEq : List Char → Option (List Char × List Char)
  | [] => none
  | c :: t => if c = '=' then some ([], t) else (splitEq t).map (fun r => (c :: r.1, r.2))

/-- `_tags.get(key, NOTHING)`, `tagging.py:97`. -/
def getTag (tags : Tags) (k : List Char) : Option (List Char) := (tags.find? (fun e => e.1 == k)).bind (·.2)

/-- `matches_pattern`, `tagging.py:94-107`. -/
def tagsMatch (tags : Tags) (w : List Char) (exact : Bool) : Bool :=
  match splitEq w with
  | some (k, v) => getTag tags k == some v
  | none => tags.any (fun e => if exact then w == e.1 else isIn w e.1)

/-- The matchers, `pattern_matching.py:12-67`; `inc true`: with `tag:`. -/
inductive M
  | inc (onlyTags : Bool) (w : List Char)
  | and (ms : List M)
  | or (ms : List M)
  | exc (m : M)
deriving Repr

/-- `Include.matches`, `pattern_matching.py:23-31`. -/
def incMatches (onlyTags : Bool) (w : List Char) (d : Meta) : Bool :=
  if tagsMatch d.tags w onlyTags then true
  else if onlyTags then false
  else isIn w d.address

mutual
/-- `matches`, `pattern_matching.py:23-31,48-50,66-67`. -/
def M.matches (d : Meta) : M → Bool
  | .inc b w => incMatches b w d
  | .and ms => M.allMatch d ms
  | .or ms => M.anyMatch d ms
  | .exc m => !(m.matches d)
/-- `all` over the matchers, `pattern_matching.py:50,54`. -/
def M.allMatch (d : Meta) : List M → Bool
  | [] => true
  | m :: ms => m.matches d && M.allMatch d ms
/-- `any` over the matchers, `pattern_matching.py:50,58`. -/
def M.anyMatch (d : Meta) : List M → Bool
  | [] => false
  | m :: ms => m.matches d || M.anyMatch d ms
end

/-- A position in the text, `pattern_matching.py:87`: the character before it and the text after it. -/
structure Inp where
  prev : Option Char
  rest : List Char
deriving DecidableEq, Repr

/-- The white space skipped before each element (the default of the parsing library), `pattern_matching.py:70-81`. -/
def isWs (c : Char) : Bool := c == ' ' || c == '\n' || c == '\t' || c == '\r'

/-- The characters of a word, `pattern_matching.py:70`. -/
def isWordChar (c : Char) : Bool := c.isAlphanum || ['.', '_', ',', '-', '=', '/', ':'].contains c

/-- The characters which may not be next to a keyword, `pattern_matching.py:77`. -/
def isIdent (c : Char) : Bool := c.isAlphanum || c == '_' || c == '$'

/-- Skipping white space, see `isWs`. -- `pattern_matching.py:70-81` -/
def skipWsL : Option Char → List Char → Inp
  | p, [] => ⟨p, []⟩
  | p, c :: t => if isWs c then skipWsL (some c) t else ⟨p, c :: t⟩

/-- Skipping white space, see `isWs`. -- `pattern_matching.py:70-81` -/
def skipWs (i : Inp) : Inp := skipWsL i.prev i.rest

/-- The text starts with the characters given. -- `pattern_matching.py:71,77-79` -/
def strip : List Char → Option Char → List Char → Option Inp
  | [], p, t => some ⟨p, t⟩
  | _ :: _, _, [] => none
  | c :: cs, _, d :: t => if c = d then strip cs (some d) t else none

/-- `Literal`, `pattern_matching.py:71,78-79`. -/
def pLit (l : List Char) (i : Inp) : Option Inp := strip l (skipWs i).prev (skipWs i).rest

/-- `Word`, `pattern_matching.py:70`: as many characters as possible. -/
def pWord (i : Inp) : Option (List Char × Inp) :=
  let j := skipWs i
  let w := j.rest.takeWhile isWordChar
  if w = [] then none else some (w, ⟨w.getLast?, j.rest.dropWhile isWordChar⟩)

/-- `Keyword("not")`, `pattern_matching.py:77`: the neighbouring characters are not letters, digits, `_` or `$`. -/
def pKwNot (i : Inp) : Option Inp :=
  let j := skipWs i
  match strip ['n', 'o', 't'] j.prev j.rest with
  | none => none
  | some k =>
    if k.rest.head?.any isIdent then none
    else if j.prev.any isIdent then none
    else some k

/-- `matcher`, `pattern_matching.py:71-72` and `12-21`: `tag:` and a word, or else a word. -/
def pMatcher (i : Inp) : Option (M × Inp) :=
  match (pLit ['t', 'a', 'g', ':'] i).bind pWord with
  | some (w, j) => some (.inc true w, j)
  | none => (pWord i).map (fun r => (.inc false r.1, r.2))

/-- An outcome of parsing, `pattern_matching.py:87`; `fuel`: not finished, see the top of this file. -/
inductive R (α : Type)
  | fuel
  | fail
  | ok (a : α) (i : Inp)
deriving Repr

/-- The binary operators, `pattern_matching.py:78-79`. -/
def opText (isOr : Bool) : List Char := if isOr then ['o', 'r'] else ['a', 'n', 'd']

/-- `from_tokens`, `pattern_matching.py:44-46`. -/
def mkOp (isOr : Bool) (ms : List M) : M := if isOr then .or ms else .and ms

mutual
/-- The operands of the tightest operator, `pattern_matching.py:74-75`: a matcher or an expression in parentheses. -/
def pBase : Nat → Inp → R M
  | 0, _ => .fuel
  | n + 1, i =>
    match pMatcher i with
    | some (m, j) => .ok m j
    | none =>
      match pLit ['('] i with
      | none => .fail
      | some j =>
        match pChain n true j with
        | .fuel => .fuel
        | .fail => .fail
        | .ok m k =>
          match pLit [')'] k with
          | none => .fail
          | some l => .ok m l
/-- The level of `not`, `pattern_matching.py:77`: `not` and something of this level, or else an operand. -/
def pNot : Nat → Inp → R M
  | 0, _ => .fuel
  | n + 1, i =>
    match pKwNot i with
    | none => pBase n i
    | some j =>
      match pNot n j with
      | .fuel => .fuel
      | .fail => pBase n i
      | .ok m k => .ok (.exc m) k
/-- The levels of `and` (`isOr = false`) and `or`, `pattern_matching.py:78-79`: at least two operands with operators between them, or
else an operand. The operands of `or` are of the level of `and`. -/
def pChain : Nat → Bool → Inp → R M
  | 0, _, _ => .fuel
  | n + 1, isOr, i =>
    match (if isOr then pChain n false i else pNot n i) with
    | .fuel => .fuel
    | .fail => .fail
    | .ok m j =>
      match pTail n isOr j with
      | .fuel => .fuel
      | .fail => .fail
      | .ok [] _ => .ok m j
      | .ok (m' :: ms) k => .ok (mkOp isOr (m :: m' :: ms)) k
/-- The repetition in such a level: operators, each with an operand after it, `pattern_matching.py:78-79`. -/
def pTail : Nat → Bool → Inp → R (List M)
  | 0, _, _ => .fuel
  | n + 1, isOr, i =>
    match pLit (opText isOr) i with
    | none => .ok [] i
    | some j =>
      match (if isOr then pChain n false j else pNot n j) with
      | .fuel => .fuel
      | .fail => .ok [] i
      | .ok m k =>
        match pTail n isOr k with
        | .fuel => .fuel
        | .fail => .fail
        | .ok ms l => .ok (m :: ms) l
end

/-- `bool_expr.parseString(pattern)`, `pattern_matching.py:87`, with the place where it stops. -/
def parse (s : List Char) : R M := pChain (5 * s.length + 4) true ⟨none, s⟩

/-- `Matcher(pattern)`, `pattern_matching.py:84-87`; `none`: a parse error. -/
def matcher (s : List Char) : Option M :=
  match parse s with
  | .ok m _ => some m
  | _ => none

/-- `_is_excluded`, `loader.py:228-232`. -/
def isExcluded (filters : List M) (d : Meta) : Bool := !(filters.all (fun m => m.matches d))

/-- `_and_matchers`, `utils/suite_files.py:42-47`. -/
def andMatchers : Option M → Option M → Option M
  | none, b => b
  | some a, none => some a
  | some a, some b => some (.and [a, b])

/-- The filter of `_generate_test_sources` on what comes from a suite file, `loader.py:106-124`. -/
def sourceMatches (filter : Option M) (d : Meta) : Bool :=
  match filter with
  | none => true
  | some m => m.matches d

end Slash.Pat
