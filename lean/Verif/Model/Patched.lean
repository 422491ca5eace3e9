import Verif.Model.Open

/-!
# The patched `open`

`BUILTIN_OPEN_FUNC_REPLACEMENT` (`rsfile_utilities.py:8-18`) calls `rsopen(*args, **params)`, `params` being some defaults
updated with the keyword arguments.  The binding of arguments to parameters is that of the python language.

Values that `rsopen` does not check (`fileno`, `handle`) are integers or absent here: other calls are not modelled.
A mutex object is true.
-/

namespace Verif

/-- A python value that is given as argument. -/
inductive PyVal where
  | none
  | bool (b : Bool)
  | int (z : Int)
  | str (s : List Char)
  | bytes (b : Bytes)
  /-- a function for the argument `opener` -/
  | func (f : PyM Host Int)
  /-- another object, which is true (a mutex, a float, ...) -/
  | object

/-- `bool(v)`. -/
def PyVal.truthy : PyVal → Bool
  | .none => false
  | .bool b => b
  | .int z => z ≠ 0
  | .str s => s ≠ []
  | .bytes b => b ≠ []
  | .func _ => true
  | .object => true

/-- Binding of arguments to the parameters of a function, all of which have defaults: positional arguments first, then
keyword arguments (a dictionary), which must name other parameters. -/
def bindArgs (sig : List (String × PyVal)) (args : List PyVal) (kwargs : List (String × PyVal)) :
    Except Exn (List (String × PyVal)) :=
  if sig.length < args.length then .error .typeError
  else if kwargs.any fun kw => !(((sig.drop args.length).map Prod.fst).contains kw.1) then .error .typeError
  else .ok (((sig.map Prod.fst).zip args) ++
    (sig.drop args.length).map fun p => (p.1, (kwargs.lookup p.1).getD p.2))

/-- The signature of `rsopen`, `rsfile_factories.py:11-27`. -/
def rsopenSig : List (String × PyVal) :=
  [("name", .none), ("mode", .str ['r']), ("buffering", .none), ("encoding", .none), ("errors", .none),
   ("newline", .none), ("fileno", .none), ("handle", .none), ("closefd", .bool true), ("opener", .none),
   ("locking", .bool true), ("timeout", .none), ("thread_safe", .bool true), ("mutex", .none), ("permissions", .int 511)]

/-- `dict.update`: the entries of `new` replace or extend those of `old`. -/
def dictUpdate (old new : List (String × PyVal)) : List (String × PyVal) :=
  new ++ old.filter fun kw => !((new.map Prod.fst).contains kw.1)

/-- `params`, `rsfile_utilities.py:14-15`. -/
def patchedParams (kwargs : List (String × PyVal)) : List (String × PyVal) :=
  dictUpdate [("handle", .none), ("locking", .bool false), ("timeout", .int 0), ("thread_safe", .bool false),
    ("mutex", .none), ("permissions", .int 511)] kwargs

/-- How a call ends before the body of `rsopen` runs, or the arguments of the body. -/
abbrev Bound := Except Exn (List (String × PyVal))

/-- The value of a parameter. -/
def valueOf (env : List (String × PyVal)) (p : String) : PyVal := (env.lookup p).getD .none

/-- The argument `name`; `enc` encodes file names. -/
def nameArg (enc : List Char → Bytes) : PyVal → NameArg
  | .none => .none
  | .bool b => .bool b
  | .int z => .int z
  | .str s => .path (enc s)
  | .bytes b => .path b
  | .func _ => .other
  | .object => .other

/-- `None`, a string or something else. -/
def strArg : PyVal → Arg Unit
  | .none => .absent
  | .str _ => .given ()
  | _ => .wrongType

def modeArg : PyVal → Arg (List Char)
  | .str s => .given s
  | _ => .wrongType

def intArg : PyVal → Arg Int
  | .none => .absent
  | .int z => .given z
  | _ => .wrongType

/-- `fileno` and `handle`. -/
def fdArg : PyVal → Option (Option Int)
  | .none => some none
  | .int z => some (some z)
  | _ => none

def openerArg : PyVal → Option (Option (PyM Host Int))
  | .none => some none
  | .func f => some (some f)
  | _ => none

/-- `v is not None`. -/
def PyVal.isSome : PyVal → Bool
  | .none => false
  | _ => true

/-- The arguments of `rsopen` as the model of its body takes them; `none` if the call is not modelled. -/
def openArgs (enc : List Char → Bytes) (env : List (String × PyVal)) : Option OpenArgs := do
  let fileno ← fdArg (valueOf env "fileno")
  let handle ← fdArg (valueOf env "handle")
  let opener ← openerArg (valueOf env "opener")
  pure {
    name := nameArg enc (valueOf env "name")
    mode := modeArg (valueOf env "mode")
    buffering := intArg (valueOf env "buffering")
    encoding := strArg (valueOf env "encoding")
    errors := strArg (valueOf env "errors")
    newline := (valueOf env "newline").isSome
    fileno := fileno
    handle := handle
    closefd := (valueOf env "closefd").truthy
    opener := opener
    locking := (valueOf env "locking").truthy
    threadSafe := (valueOf env "thread_safe").truthy
    mutex := (valueOf env "mutex").isSome }

/-- A call `rsopen(*args, **kwargs)`; `none` if it is not modelled. -/
def callRsopen (py : Python) (enc : List Char → Bytes) (args : List PyVal) (kwargs : List (String × PyVal)) :
    Option (PyM Host Opened) :=
  match bindArgs rsopenSig args kwargs with
  | .error e => some (PyM.raise e)
  | .ok env => (openArgs enc env).map (OpenArgs.rsopen py)

/-- A call of the patched `open(*args, **kwargs)`, `rsfile_utilities.py:8-18`. -/
def callPatched (py : Python) (enc : List Char → Bytes) (args : List PyVal) (kwargs : List (String × PyVal)) :
    Option (PyM Host Opened) :=
  callRsopen py enc args (patchedParams kwargs)

end Verif
