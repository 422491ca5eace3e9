import Verif.Spec.Together
import Verif.Spec.Ranges

/-!
# Programs that lock the bytes they use

As `Together`, but the locks are on ranges of bytes, as `lock_file(length, offset, whence)` takes them
(`rsfileio_abstract.py:443-532`), so that several streams hold exclusive locks at the same time.
-/

set_option autoImplicit false

namespace Verif.Spec

open Verif

/-- An item, with the range that is locked or unlocked. -/
inductive RecItem where
  | opened (i : Sid) (b : Buf)
  | ask (i : Sid)
  | granted (i : Sid) (shared : Bool) (start : Int) (stop : Option Int)
  | did (i : Sid) (op : StreamOp)
  | unlock (i : Sid) (start : Int) (stop : Option Int)
  | exit (i : Sid) (start : Int) (stop : Option Int)
  | close (i : Sid)
  | gone (pid : Nat)

/-- What happens to the streams and to the file does not depend on the range. -/
def RecItem.item : RecItem → Item
  | .opened i b => .opened i b
  | .ask i => .ask i
  | .granted i sh _ _ => .granted i sh
  | .did i op => .did i op
  | .unlock i _ _ => .unlock i
  | .exit i _ _ => .exit i
  | .close i => .close i
  | .gone p => .gone p

/-- The items of a history. -/
def itemsOf (h : List RecItem) : List Item := h.map RecItem.item

/-! ## Which bytes are locked -/

/-- A lock. -/
structure Record where
  sid : Sid
  shared : Bool
  start : Int
  stop : Option Int

/-- The locks held after an item. -/
def recStep (H : List Record) : RecItem → List Record
  | .granted i sh a e => H ++ [⟨i, sh, a, e⟩]
  | .unlock i a e => H.filter (fun r => ¬ (r.sid = i ∧ r.start = a ∧ r.stop = e))
  | .exit i a e => H.filter (fun r => ¬ (r.sid = i ∧ r.start = a ∧ r.stop = e))
  | .close i => H.filter (fun r => r.sid ≠ i)
  | .gone p => H.filter (fun r => r.sid.1 ≠ p)
  | _ => H

/-- The locks held after a history. -/
def records (h : List RecItem) : List Record := h.foldl recStep []

/-- Stream `i` has byte `x` locked. -/
def Has (H : List Record) (i : Sid) (x : Nat) : Prop := ∃ r ∈ H, r.sid = i ∧ Covers r.start r.stop x

/-- Stream `i` has byte `x` locked exclusively. -/
def Owns (H : List Record) (i : Sid) (x : Nat) : Prop := ∃ r ∈ H, r.sid = i ∧ r.shared = false ∧ Covers r.start r.stop x

/-- Locks of different streams that share a byte are both shared. -/
def RecExclusion (H : List Record) : Prop :=
  ∀ a ∈ H, ∀ b ∈ H, a.sid ≠ b.sid → Meet a.start a.stop b.start b.stop → a.shared = true ∧ b.shared = true

/-! ## Disciplined programs -/

/-- A reading call at position `p` of the array `d` does not depend on what follows byte `q`. -/
def Stops (d : Bytes) (p q : Nat) : StreamOp → Prop
  | .read none => d.length ≤ q
  | .read (some n) => d.length ≤ q ∨ n < -1 ∨ (0 ≤ n ∧ p + n ≤ q)
  | .read1 n => d.length ≤ q ∨ (0 ≤ n ∧ p + n ≤ q)
  | .peek _ => d.length ≤ q
  | .readline n => d.length ≤ q ∨ (0 ≤ n ∧ p + 2 * n ≤ q) ∨ ∃ x, p ≤ x ∧ x < q ∧ d[x]? = some 10
  | .tell => True
  | .flush => True
  | .size => True
  | _ => False

/-- Stream `i` may call `op` when the array and the positions are `s`: it reads only bytes it has locked, and writes only
bytes of the file it has locked exclusively.  It does not change the size of the file, nor seek before the beginning. -/
def Uses (H : List Record) (s : Common) (i : Sid) : StreamOp → Prop
  | .write d => s.pos i + d.length ≤ s.data.length ∧ ∀ x, s.pos i ≤ x → x < s.pos i + d.length → Owns H i x
  | .seek o w => 0 ≤ (s.view i []).target o w
  | op => ∃ q, Stops s.data (s.pos i) q op ∧ ∀ x, s.pos i ≤ x → x < q → x < s.data.length → Has H i x

/-- What a disciplined program may do after the history `h`, when the array and the positions are `s`.  A `with` block
on bytes locked exclusively ends with a `flush`. -/
def Orderly (s : Common) (h : List RecItem) : RecItem → Prop
  | .opened i b => i ∉ openIn (itemsOf h) ∧ FreshStream b
  | .ask i => i ∈ openIn (itemsOf h)
  | .granted i _ _ _ => i ∈ openIn (itemsOf h) ∧ lastOf (itemsOf h) i = some (.ask i)
  | .did i op => i ∈ openIn (itemsOf h) ∧ Uses (records h) s i op
  | .unlock i a e => i ∈ openIn (itemsOf h) ∧ ∃ sh, ⟨i, sh, a, e⟩ ∈ records h
  | .exit i a e => i ∈ openIn (itemsOf h) ∧ (∃ sh, ⟨i, sh, a, e⟩ ∈ records h) ∧
      (⟨i, false, a, e⟩ ∉ records h ∨ lastOf (itemsOf h) i = some (.did i .flush))
  | .close i => i ∈ openIn (itemsOf h)
  | .gone p => ∀ r ∈ records h, r.sid.1 ≠ p

/-- The content of the file, and the results of the calls of a history. -/
def recorded (d : Bytes) (h : List RecItem) : List (Item × StreamOut) × Together :=
  Together.play ⟨d, fun _ => none⟩ (itemsOf h)

/-- All along a history, the programs are disciplined, whenever the results so far are those of the array, and locks
exclude each other. -/
def RecDisciplined (d : Bytes) (h : List RecItem) : Prop :=
  ∀ pre it post, h = pre ++ it :: post →
    (∀ s, Serially (.start d) (recorded d pre).1 s → Orderly s pre it) ∧ RecExclusion (records (pre ++ [it]))

/-! ## Where the locks come from -/

/-- The locks of a history are held, on the file `u`, in the system of processes. -/
def RecHeldIn (u : Uid) (tr : List Event) (H : List Record) : Prop :=
  ∀ r ∈ H, ∃ x ∈ heldOf tr, x.uid = u ∧ (x.pid, x.sid) = r.sid ∧ x.shared = r.shared ∧ x.start = r.start ∧ x.stop = r.stop

/-- Programs and the system of processes that grants the locks, side by side. -/
inductive RecJoint (u : Uid) : List RecItem → List Label → World → List Event → Prop
  | init : RecJoint u [] [] World.init []
  | system {h : List RecItem} {ls : List Label} {w w' : World} {tr e : List Event} {l : Label} :
      RecJoint u h ls w tr → WellWrapped w l → Verif.step w l = some (w', e) → RecHeldIn u (tr ++ e) (records h) →
      RecJoint u h (ls ++ [l]) w' (tr ++ e)
  | item {h : List RecItem} {ls : List Label} {w : World} {tr : List Event} {it : RecItem} :
      RecJoint u h ls w tr → RecHeldIn u tr (records (h ++ [it])) → RecJoint u (h ++ [it]) ls w tr

/-- All along a history, the programs are disciplined, whenever the results so far are those of the array. -/
def AlwaysOrderly (d : Bytes) (h : List RecItem) : Prop :=
  ∀ pre it post, h = pre ++ it :: post → ∀ s, Serially (.start d) (recorded d pre).1 s → Orderly s pre it

end Verif.Spec
