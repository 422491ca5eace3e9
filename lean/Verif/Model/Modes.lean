import Verif.Model.RawIO

/-!
# Mode strings and the arguments of the raw stream

`parse_standard_args` and `parse_advanced_args` (`rsfile_factories.py:349-454`) and the dispatch between them
(`rsfile_factories.py:224-234`), and the `mode` attribute (`rsfileio_abstract.py:266-294`).

A path is its encoded byte string (encoding does not fail).  `fileno` and `handle` are integers or absent.
-/

namespace Verif

/-- `str.lower` and `str.upper`.  Outside ASCII they may do anything. -/
structure CaseMap where
  lower : List Char → List Char
  upper : List Char → List Char
  lower_ascii : ∀ s, (∀ c ∈ s, c.toNat < 128) → lower s = s.map Char.toLower
  upper_ascii : ∀ s, (∀ c ∈ s, c.toNat < 128) → upper s = s.map Char.toUpper

/-- The python installation. -/
structure Python where
  caseMap : CaseMap
  /-- `sys.version_info < (3, 11)`, `rsfile_definitions.py:22` -/
  hasU : Bool
  /-- `hasattr(os, "fork")` -/
  canFork : Bool

/-- The argument `name`, after `os.fspath`, `rsfile_factories.py:207-212`. -/
inductive NameArg where
  | none
  | path (p : Bytes)
  | int (z : Int)
  | bool (b : Bool)
  | other
  deriving DecidableEq

/-- `raw_kwargs`, `rsfile_factories.py:393-405,441-453`: the arguments of `RSFileIO`. -/
structure RawKw where
  path : NameArg
  read : Bool
  write : Bool
  append : Bool
  mustCreate : Bool
  mustNotCreate : Bool
  synchronized : Bool
  inheritable : Bool
  fileno : Option Int
  handle : Option Int
  closefd : Bool
  deriving DecidableEq

/-- `extended_kwargs`, `rsfile_factories.py:407,452`. -/
structure ExtKw where
  truncate : Bool
  binary : Bool
  text : Bool
  deriving DecidableEq

/-- `STDLIB_OPEN_FLAGS`, `rsfile_definitions.py:22`. -/
def stdFlags (hasU : Bool) : List Char := ['x', 'a', 'r', 'w', '+', 'b', 't'] ++ (if hasU then ['U'] else [])

/-- `ADVANCED_OPEN_FLAGS`, `rsfile_definitions.py:23`. -/
def advFlags : List Char := ['R', 'A', 'W', '+', '-', 'C', 'N', 'S', 'I', 'E', 'B', 'T']

/-- `modes - FLAGS or len(mode) > len(modes)`, `rsfile_factories.py:353,416`, `modes` being the set of the characters. -/
def badFlags (flags mode : List Char) : Bool := mode.any (fun c => !flags.contains c) || !decide mode.Nodup

/-- `parse_standard_args`, `rsfile_factories.py:349-411`. -/
def parseStandard (py : Python) (name : NameArg) (mode : List Char) (fileno handle : Option Int) (closefd : Bool) :
    Except Exn (RawKw × ExtKw) :=
  let has := fun c => mode.contains c
  let creating := has 'x'
  let reading := has 'r' || has 'U'
  let writing := has 'w'
  let appending := has 'a'
  let updating := has '+'
  let kws := fun (path : NameArg) (fileno : Option Int) =>
    ({ path := path, read := reading || updating, write := creating || writing || appending || updating,
       append := appending, mustCreate := creating, mustNotCreate := reading && !(creating || writing || appending),
       synchronized := false, inheritable := false, fileno := fileno, handle := handle, closefd := closefd : RawKw },
     { truncate := writing && !creating, binary := has 'b', text := has 't' : ExtKw })
  if mode = [] || badFlags (stdFlags py.hasU) mode then .error .badValueType
  else if has 'U' && (creating || writing || appending || updating) then .error .badValueType
  else if creating.toNat + reading.toNat + writing.toNat + appending.toNat ≠ 1 then .error .badValueType
  else
    match name with
    | .none => .ok (kws .none fileno)
    | .path p => .ok (kws (.path p) fileno)
    | .int z => if fileno.isSome then .error .badValueType else .ok (kws .none (some z))
    | .bool b => if fileno.isSome then .error .badValueType else .ok (kws .none (some b.toNat))
    | .other => .error .badValueType

/-- `parse_advanced_args`, `rsfile_factories.py:414-454`. -/
def parseAdvanced (name : NameArg) (mode : List Char) (fileno handle : Option Int) (closefd : Bool) :
    Except Exn (RawKw × ExtKw) :=
  let has := fun c => mode.contains c
  let mustCreate := has 'C' || has '-'
  if badFlags advFlags mode then .error .badValueType
  else
    .ok ({ path := name, read := has 'R', write := has 'W' || has 'A', append := has 'A', mustCreate := mustCreate,
           mustNotCreate := has 'N' || has '+', synchronized := has 'S', inheritable := has 'I', fileno := fileno,
           handle := handle, closefd := closefd },
         { truncate := has 'E' && !mustCreate, binary := has 'B', text := has 'T' })

/-- The dispatch of `rsopen`, `rsfile_factories.py:224-234`. -/
def parseMode (py : Python) (name : NameArg) (mode : List Char) (fileno handle : Option Int) (closefd : Bool) :
    Except Exn (RawKw × ExtKw) :=
  let cleaned := mode.filter (· ≠ 'U')
  if py.caseMap.lower cleaned = cleaned then parseStandard py name mode fileno handle closefd
  else if py.caseMap.upper cleaned = cleaned then parseAdvanced name mode fileno handle closefd
  else .error .badValueType

/-- The `mode` attribute of an open raw stream, `rsfileio_abstract.py:266-294` (`HAS_X_OPEN_FLAG` is true). -/
def modeAttr (readable writable append mustCreate : Bool) : List Char :=
  if mustCreate then (if writable && readable then ['x', 'b', '+'] else ['x', 'b'])
  else if append then (if readable then ['a', 'b', '+'] else ['a', 'b'])
  else if writable then (if readable then ['r', 'b', '+'] else ['w', 'b'])
  else ['r', 'b']

end Verif
