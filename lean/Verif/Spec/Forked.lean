import Verif.Model.Forked
import Verif.Spec.Stream

/-!
# Vocabulary of C117: processes that share an inherited stream
-/

set_option autoImplicit false

namespace Verif.Spec

open Verif Family

/-- Calls after which the stream object has nothing pending and nothing read ahead. -/
def Settling (k : BufKind) : StreamOp → Bool
  | .seek 0 .cur => true
  | .lock _ => true
  | .unlock => true
  | .flush => k = .writer
  | .size => k = .writer
  | _ => false

/-- Histories in which processes take turns: another process is served, or created, only after the one before has settled its
stream object.  `holder` is the process that has not. -/
inductive Turns (k : BufKind) (w0 : Family) : List (Nat × StreamOp × StreamOut) → Option Nat → Family → Prop
  | start : Turns k w0 [] none w0
  | call {h : List (Nat × StreamOp × StreamOut)} {w : Family} {holder : Option Nat} {i : Nat} {b : Buf} (op : StreamOp) :
      Turns k w0 h holder w → w.proc i = some b → holder = none ∨ holder = some i →
      Turns k w0 (h ++ [(i, op, (w.call i b op).1)]) (if Settling k op then none else some i) (w.call i b op).2
  | fork {h : List (Nat × StreamOp × StreamOut)} {w : Family} {holder : Option Nat} {i j : Nat} {b : Buf} :
      Turns k w0 h holder w → w.proc i = some b → w.proc j = none → holder ≠ some i → Turns k w0 h holder (w.fork b j)

/-- Calls of a program that only writes, and does not move the stream. -/
def Logging : StreamOp → Bool
  | .write _ | .flush | .size | .tell => true
  | _ => false

/-- Whether a process has nothing pending. -/
def dryAfter (dry : Bool) : StreamOp → StreamOut → Bool
  | .write _, _ => false
  | .flush, .done => true
  | .size, .num _ => true
  | _, _ => dry

/-- Histories of processes that write, and that have nothing pending when they make other processes. -/
inductive Logs (w0 : Family) : List (Nat × StreamOp × StreamOut) → (Nat → Bool) → Family → Prop
  | start : Logs w0 [] (fun _ => true) w0
  | call {h : List (Nat × StreamOp × StreamOut)} {w : Family} {dry : Nat → Bool} {i : Nat} {b : Buf} (op : StreamOp) :
      Logs w0 h dry w → w.proc i = some b → Logging op = true →
      Logs w0 (h ++ [(i, op, (w.call i b op).1)]) (fun j => if j = i then dryAfter (dry i) op (w.call i b op).1 else dry j)
        (w.call i b op).2
  | fork {h : List (Nat × StreamOp × StreamOut)} {w : Family} {dry : Nat → Bool} {i j : Nat} {b : Buf} :
      Logs w0 h dry w → w.proc i = some b → w.proc j = none → dry i = true → Logs w0 h dry (w.fork b j)

/-- What a call reports as accepted.  A `write` that fails with another error than `BlockingIOError` has taken all or
nothing. -/
def TakesIn : StreamOp → StreamOut → Bytes → Prop
  | .write d, .num n, acc => acc = d ∧ n = d.length
  | .write d, .error (.blockingIO k), acc => acc = d.take k ∧ k ≤ d.length
  | .write d, .error _, acc => acc = [] ∨ acc = d
  | _, _, acc => acc = []

/-- All that was accepted from process `i`. -/
inductive TakenFrom (i : Nat) : List (Nat × StreamOp × StreamOut) → Bytes → Prop
  | nil : TakenFrom i [] []
  | mine {h : List (Nat × StreamOp × StreamOut)} {op : StreamOp} {out : StreamOut} {all acc : Bytes} :
      TakenFrom i h all → TakesIn op out acc → TakenFrom i (h ++ [(i, op, out)]) (all ++ acc)
  | other {h : List (Nat × StreamOp × StreamOut)} {j : Nat} {op : StreamOp} {out : StreamOut} {all : Bytes} :
      TakenFrom i h all → j ≠ i → TakenFrom i (h ++ [(j, op, out)]) all

/-- The bytes of the pieces that process `i` has added, in order. -/
def piecesOf (i : Nat) (ps : List (Nat × Bytes)) : Bytes := ((ps.filter fun p => p.1 = i).map Prod.snd).flatten

end Verif.Spec
