/-!
# Process-global options

`rsfile_registries.py:8-62` and the capture of the options by a new stream, `rsfileio_abstract.py:86-87`.
Dictionaries are python objects with an identity: `get_rsfile_options()` hands a dictionary over to the user, who may
modify it.  `V` is the type of option values (numbers or `None`, immutable).
-/

namespace Verif

/-- A python dictionary with string keys: an association list. -/
abbrev PyDict (V : Type) := List (String × V)

/-- `d[k] = v`. -/
def PyDict.put {V : Type} (d : PyDict V) (k : String) (v : V) : PyDict V :=
  match d with
  | [] => [(k, v)]
  | (k', v') :: d => if k' = k then (k, v) :: d else (k', v') :: PyDict.put d k v

/-- `d.update(other)`. -/
def PyDict.update {V : Type} (d other : PyDict V) : PyDict V := other.foldl (fun d kv => d.put kv.1 kv.2) d

/-- `d.keys()`. -/
def PyDict.keys {V : Type} (d : PyDict V) : List String := d.map Prod.fst

/-- Dictionaries by address, the addresses of the dictionaries that the user has got, and the values stored by each
stream (`enforced_locking_timeout_value`, `default_spinlock_delay`). -/
structure OptState (V : Type) where
  heap : List (PyDict V)
  owned : List Nat
  streams : List (V × V)

/-- Address of `_default_rsfile_options`. -/
def optGlobal : Nat := 0

/-- `_default_rsfile_options`, `rsfile_registries.py:8-16`. -/
def OptState.init {V : Type} (timeout delay : V) : OptState V :=
  ⟨[[("enforced_locking_timeout_value", timeout), ("default_spinlock_delay", delay)]], [], []⟩

inductive OptOp (V : Type) where
  /-- `set_rsfile_options(**options)` -/
  | setOptions (options : PyDict V)
  /-- `get_rsfile_options()` -/
  | getOptions
  /-- the user changes a dictionary that they own -/
  | userPut (addr : Nat) (k : String) (v : V)
  /-- the user empties a dictionary that they own -/
  | userClear (addr : Nat)
  /-- a `RSFileIO` object is created -/
  | newStream

inductive OptOut (V : Type) where
  | none
  | valueError
  | keyError
  /-- a dictionary is returned: its address and its present content -/
  | dict (addr : Nat) (content : PyDict V)
  | stream (sid : Nat)

def OptState.deref {V : Type} (s : OptState V) (a : Nat) : PyDict V := s.heap[a]?.getD []

def OptState.step {V : Type} (s : OptState V) : OptOp V → OptState V × OptOut V
  /- `rsfile_registries.py:42-46` -/
  | .setOptions options =>
    let all := (s.deref optGlobal).keys
    if options.keys.all (fun k => all.contains k) then
      ({ s with heap := s.heap.set optGlobal ((s.deref optGlobal).update options) }, .none)
    else (s, .valueError)
  /- `rsfile_registries.py:62`: a copy, which is a new object -/
  | .getOptions =>
    ({ s with heap := s.heap ++ [s.deref optGlobal], owned := s.heap.length :: s.owned },
      .dict s.heap.length (s.deref optGlobal))
  | .userPut a k v =>
    if a ∈ s.owned then ({ s with heap := s.heap.set a ((s.deref a).put k v) }, .none) else (s, .none)
  | .userClear a =>
    if a ∈ s.owned then ({ s with heap := s.heap.set a [] }, .none) else (s, .none)
  /- `rsfileio_abstract.py:86-87` -/
  | .newStream =>
    match (s.deref optGlobal).lookup "enforced_locking_timeout_value",
          (s.deref optGlobal).lookup "default_spinlock_delay" with
    | some t, some d => ({ s with streams := s.streams ++ [(t, d)] }, .stream s.streams.length)
    | _, _ => (s, .keyError)

def OptState.run {V : Type} (s : OptState V) (ops : List (OptOp V)) : OptState V :=
  ops.foldl (fun s op => (s.step op).1) s

end Verif
