import Verif.Model.PyM

/-!
# The thread-safe wrapper

`RSThreadSafeWrapper` (`rsfile_streams.py:150-203`) as a transition system: any number of threads get attributes of one
wrapper and call what they got.  The wrapped stream is arbitrary: a state and a program for each of its methods; a program
is a sequence of atomic actions on the state (what one bytecode or one system call does), and may call back through the
wrapper.  The mutex is re-entrant (`threading.RLock`, `rsfile_streams.py:163-168`).

Not modelled: attributes that are not callable; assignment to attributes of the wrapper by its users; exceptions that
arrive from outside between the actions (`KeyboardInterrupt`); mutexes of the caller that are not re-entrant.
-/

namespace Verif

set_option autoImplicit false

/-- What `getattr(wrapper, name)` returns for a method, `rsfile_streams.py:174-186`: the method of the wrapped stream
itself, or the cached `_method_proxy`. -/
inductive Handle where
  | direct (name : String)
  | proxy (name : String)
  deriving DecidableEq

/-- The name a callable was got under. -/
def Handle.name : Handle → String
  | .direct n => n
  | .proxy n => n

/-- A program on the state of the wrapped stream; it ends with a value or an exception. -/
inductive Prog (σ : Type) where
  | ret (r : Except Exn Int)
  | act (f : σ → σ × Int) (k : Int → Prog σ)
  /-- a call through the wrapper -/
  | call (h : Handle) (arg : Int) (k : Except Exn Int → Prog σ)

/-- What a thread does. -/
inductive Thread (σ : Type) where
  | idle
  /-- in `__getattr__`, before `setattr`, `rsfile_streams.py:174-184` -/
  | looking (name : String)
  /-- at `with self.mutex`, `rsfile_streams.py:171`; the callers are `ks` -/
  | asking (p : Prog σ) (ks : List (Bool × (Except Exn Int → Prog σ)))
  /-- in a method; the flag says whether the call is one of `_secure_call` -/
  | active (p : Prog σ) (locked : Bool) (ks : List (Bool × (Except Exn Int → Prog σ)))

/-- The wrapper, the wrapped stream and the threads. -/
structure Wrap (σ : Type) where
  state : σ
  /-- the owner of the mutex and the number of times it has acquired it -/
  mutex : Option (Nat × Nat)
  /-- the names for which a proxy was stored in the `__dict__` of the wrapper -/
  cache : List String
  /-- the callables that have been handed out -/
  handles : List Handle
  thread : Nat → Thread σ
  /-- the outermost protected calls, in the order in which they obtained the mutex -/
  order : List (Nat × Prog σ)
  /-- the results of the outermost protected calls, in the order in which they ended -/
  results : List (Nat × Except Exn Int)
  /-- the number of outermost calls that have ended, protected or not -/
  ended : Nat

namespace Wrap

variable {σ : Type}

/-- `name.startswith("_")`, `rsfile_streams.py:178`. -/
def isPrivate (name : String) : Bool := name.toList.head? = some '_'

/-- The state of one thread is replaced. -/
def set (w : Wrap σ) (t : Nat) (s : Thread σ) : Wrap σ :=
  { w with thread := fun u => if u = t then s else w.thread u }

/-- A thread begins a call: a proxy goes to the mutex (`_secure_call`), a method of the stream begins at once. -/
def begin (body : String → Int → Prog σ) (h : Handle) (arg : Int) (ks : List (Bool × (Except Exn Int → Prog σ))) :
    Thread σ :=
  match h with
  | .direct n => .active (body n arg) false ks
  | .proxy n => .asking (body n arg) ks

/-- One step of thread `t`. -/
inductive Step (body : String → Int → Prog σ) (t : Nat) : Wrap σ → Wrap σ → Prop
  /-- `getattr(wrapper, name)`: there is a proxy in the `__dict__` -/
  | hit (w : Wrap σ) (name : String) (hi : w.thread t = .idle) (hc : name ∈ w.cache) :
      Step body t w { w with handles := .proxy name :: w.handles }
  /-- `getattr(wrapper, name)`: there is none -/
  | miss (w : Wrap σ) (name : String) (hi : w.thread t = .idle) (hc : name ∉ w.cache) :
      Step body t w (w.set t (.looking name))
  /-- the proxy is stored, unless the name is private; the method itself is returned -/
  | store (w : Wrap σ) (name : String) (hi : w.thread t = .looking name) :
      Step body t w ({ w with
        cache := if isPrivate name then w.cache else name :: w.cache
        handles := .direct name :: w.handles }.set t .idle)
  | invoke (w : Wrap σ) (h : Handle) (arg : Int) (hi : w.thread t = .idle) (hh : h ∈ w.handles) :
      Step body t w (w.set t (begin body h arg []))
  /-- the mutex is acquired -/
  | enter (w : Wrap σ) (p : Prog σ) (ks : List (Bool × (Except Exn Int → Prog σ))) (hi : w.thread t = .asking p ks)
      (hm : w.mutex = none) : Step body t w ({ w with
        mutex := some (t, 1)
        order := w.order ++ [(t, p)] }.set t (.active p true ks))
  /-- the mutex is acquired once more -/
  | reenter (w : Wrap σ) (p : Prog σ) (ks : List (Bool × (Except Exn Int → Prog σ))) (d : Nat)
      (hi : w.thread t = .asking p ks) (hm : w.mutex = some (t, d)) :
      Step body t w ({ w with mutex := some (t, d + 1) }.set t (.active p true ks))
  | act (w : Wrap σ) (f : σ → σ × Int) (k : Int → Prog σ) (l : Bool) (ks : List (Bool × (Except Exn Int → Prog σ)))
      (hi : w.thread t = .active (.act f k) l ks) :
      Step body t w ({ w with state := (f w.state).1 }.set t (.active (k (f w.state).2) l ks))
  | call (w : Wrap σ) (h : Handle) (arg : Int) (k : Except Exn Int → Prog σ) (l : Bool)
      (ks : List (Bool × (Except Exn Int → Prog σ))) (hi : w.thread t = .active (.call h arg k) l ks) :
      Step body t w (w.set t (begin body h arg ((l, k) :: ks)))
  /-- a call ends: the mutex is released if the call has acquired it, whether the result is a value or an exception -/
  | leave (w : Wrap σ) (r : Except Exn Int) (l : Bool) (k : Except Exn Int → Prog σ) (l' : Bool)
      (ks : List (Bool × (Except Exn Int → Prog σ))) (hi : w.thread t = .active (.ret r) l ((l', k) :: ks)) :
      Step body t w ({ w with
        mutex := if l then w.mutex.bind fun o => if o.2 = 1 then none else some (o.1, o.2 - 1) else w.mutex
        results := if l ∧ w.mutex = some (t, 1) then w.results ++ [(t, r)] else w.results }.set t (.active (k r) l' ks))
  | finish (w : Wrap σ) (r : Except Exn Int) (l : Bool) (hi : w.thread t = .active (.ret r) l []) :
      Step body t w ({ w with
        mutex := if l then w.mutex.bind fun o => if o.2 = 1 then none else some (o.1, o.2 - 1) else w.mutex
        results := if l ∧ w.mutex = some (t, 1) then w.results ++ [(t, r)] else w.results
        ended := w.ended + 1 }.set t .idle)

/-- A new wrapper. -/
def new (s : σ) : Wrap σ :=
  { state := s, mutex := none, cache := [], handles := [], thread := fun _ => .idle, order := [], results := [],
    ended := 0 }

/-- What can happen. -/
inductive Reach (body : String → Int → Prog σ) (s0 : σ) : Wrap σ → Prop
  | new : Reach body s0 (new s0)
  | step {w w' : Wrap σ} (t : Nat) (h : Reach body s0 w) (hs : Step body t w w') : Reach body s0 w'

end Wrap

end Verif
