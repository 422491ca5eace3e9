import Verif.Lemmas.Device
import Verif.Props.Buffered

/-!
# C48: synchronisation

The guarantee of the operating system that is assumed: see `Spec.Device`.
-/

set_option autoImplicit false

namespace Verif.Props

open Verif Verif.Spec

/-- After the events `log` the file is safe with the content `c`: whatever happens later (`p`), a crash can only change
bytes that were changed later. -/
def Durable (d : Device) (log : List DiskEv) (c : Bytes) : Prop :=
  ∀ (p : List DiskEv) (left : Bytes), (d.after (log ++ p)).MayLeave left →
    ∀ i : Nat, (∀ v : Bytes, .content v ∈ p → v[i]? = c[i]?) → left[i]? = c[i]?

/-- In particular, if the file is not changed any more. -/
theorem Durable.same {d : Device} {log : List DiskEv} {c : Bytes} (h : Durable d log c) (p : List DiskEv) (left : Bytes)
    (hl : (d.after (log ++ p)).MayLeave left) (hp : ∀ v, .content v ∉ p) : left = c :=
  List.ext_getElem? fun i => h p left hl i fun v hv => absurd hv (hp v)

-- without flush, a crash may leave the old content
example : ¬ Durable ⟨[], [[1]]⟩ [.content [2]] [2] := by
  intro h
  have := h [] [1] ⟨⟨[1], by simp [Device.after, Device.step], rfl⟩, fun i _ => Or.inl ⟨[1], by simp [Device.after, Device.step], rfl⟩⟩
    0 (by simp)
  simp at this

/-- A call on a stream. -/
inductive AnyOp where
  | op (o : StreamOp)
  | readinto (read1 : Bool) (dst : Bytes)
  | sync (fdatasync metadata fullFlush : Bool)
  | close

/-- The state after a call, whether it raised or not. -/
def after1 (b : Buf) : AnyOp → Buf
  | .op o => (b.step o).2
  | .readinto r dst => (b.readinto r dst).2
  | .sync a m f => (b.sync a m f).2
  | .close => b.close.2

def afterAll (b : Buf) : List AnyOp → Buf
  | [] => b
  | o :: os => afterAll (after1 b o) os

theorem close_raw {P : Raw → Raw → Prop} (h : RawSteps P) (hc : Along P Raw.close) (b : Buf) : P b.raw b.close.2.raw := by
  unfold Buf.close
  split
  · exact h.refl _
  · exact Along.tryFinally h.pre h.bFlush (RawSteps.onRaw hc) b

theorem after1_grows (b : Buf) (o : AnyOp) : Grows b.raw (after1 b o).raw := by
  cases o with
  | op o => exact Grows.steps.bStep b o
  | readinto r d => exact Grows.steps.bReadinto r d b
  | sync a m f => exact Grows.steps.bSync a m f b
  | close =>
    refine close_raw Grows.steps (fun s => ?_) b
    unfold Raw.close
    split <;> exact Grows.same rfl rfl

theorem afterAll_grows (os : List AnyOp) (b : Buf) : Grows b.raw (afterAll b os).raw := by
  induction os generalizing b with
  | nil => exact Grows.pre.refl _
  | cons o os ih => exact Grows.pre.trans (after1_grows b o) (ih _)

/-- C48: later calls, of any kind and with any outcome, only add events. -/
theorem C48_later (os : List AnyOp) (b : Buf) : ∃ l, (afterAll b os).raw.disk = b.raw.disk ++ l := by
  obtain ⟨l, h, _⟩ := afterAll_grows os b
  exact ⟨l, h⟩

/-- What is kept through a history. -/
structure KeptClass (b b' : Buf) : Prop where
  platform : b'.raw.platform = b.raw.platform
  writable : b'.raw.writable = b.raw.writable
  kind : b'.kind = b.kind
  still : Buf.Still b b'

theorem after1_kept (b : Buf) (o : AnyOp) : KeptClass b (after1 b o) := by
  cases o with
  | op o =>
    have h := Fixed.steps.bStep b o
    exact ⟨h.platform, h.writable, (Buf.step_keeps b o).1, Buf.Still.step b o⟩
  | readinto r d =>
    have h := Fixed.steps.bReadinto r d b
    exact ⟨h.platform, h.writable, (SameClass.readinto r d b).1, Buf.Still.readinto r d b⟩
  | sync a m f =>
    have h := Fixed.steps.bSync a m f b
    exact ⟨h.platform, h.writable, (SameClass.sync a m f b).1, Buf.Still.sync a m f b⟩
  | close =>
    have h : (after1 b .close).raw.platform = b.raw.platform ∧ (after1 b .close).raw.writable = b.raw.writable := by
      have hc : Along (fun s s' : Raw => s'.platform = s.platform ∧ s'.writable = s.writable) Raw.close := by
        intro s
        unfold Raw.close
        split <;> exact ⟨rfl, rfl⟩
      have hf := Fixed.steps.bFlush b
      change (Buf.close b).2.raw.platform = b.raw.platform ∧ (Buf.close b).2.raw.writable = b.raw.writable
      unfold Buf.close
      split
      · exact ⟨rfl, rfl⟩
      · have h2 := hc (Buf.flush b).2.raw
        rw [PyM.tryFinally_apply]
        unfold Buf.onRaw
        dsimp only
        generalize Raw.close (Buf.flush b).2.raw = q at *
        obtain ⟨r, s⟩ := q
        cases r <;> exact ⟨h2.1.trans hf.platform, h2.2.trans hf.writable⟩
    exact ⟨h.1, h.2, (SameClass.close b).1, Buf.Still.close b⟩

theorem afterAll_kept (os : List AnyOp) (b : Buf) : KeptClass b (afterAll b os) := by
  induction os generalizing b with
  | nil => exact ⟨rfl, rfl, rfl, Buf.Still.pre.refl _⟩
  | cons o os ih =>
    have h1 := after1_kept b o
    have h2 := ih (after1 b o)
    exact ⟨h2.platform.trans h1.platform, h2.writable.trans h1.writable, h2.kind.trans h1.kind,
      Buf.Still.pre.trans h1.still h2.still⟩

theorem usable_after {kind : BufKind} {n : Int} {raw : Raw} {b : Buf} (hc : Buf.create kind n raw = .ok b)
    (hp : raw.platform = .unix) (os : List AnyOp) (ho : (afterAll b os).raw.closed = false) : Usable (afterAll b os) := by
  obtain ⟨rfl, _, _, _, hw⟩ := create_ok hc
  have h := afterAll_kept os ⟨kind, n.toNat, raw, [], 0, []⟩
  exact ⟨ho, h.platform.trans hp, fun hk => h.writable.trans (hw fun e => hk (h.kind.trans e)),
    fun hk => (h.still (h.kind.symm.trans hk)).2⟩

/-- Durability of a content that was flushed, if no write error was reported. -/
theorem durable_of_flushed {d : Device} {c₀ : Bytes} (hd : d.Sound c₀) (l : List DiskEv) (k : FlushKind)
    (hw : .writeError ∉ l) (hl : l.getLast? = some (.flushed k)) : Durable d l (lastContent c₀ l) := by
  intro p left hm i hi
  have hone : (d.after l).lost ++ (d.after l).recent = [lastContent c₀ l] := by
    rw [after_lost d l hw, hd.1, List.nil_append]
    obtain ⟨l', rfl⟩ : ∃ l', l = l' ++ [.flushed k] := by
      rw [List.getLast?_eq_some_iff] at hl
      exact hl
    have h1 := after_last d c₀ hd.2 l'
    rw [after_append]
    simp only [Device.after, Device.step, h1, Option.toList_some]
    rw [lastContent_append]
    rfl
  have hall : ∀ v, v ∈ (d.after (l ++ p)).lost ++ (d.after (l ++ p)).recent → v[i]? = (lastContent c₀ l)[i]? := by
    intro v hv
    rw [after_append] at hv
    rcases after_mem _ _ _ hv with h | h
    · rw [hone, List.mem_singleton] at h
      rw [h]
    · exact hi v h
  obtain ⟨⟨v, hv, hlen⟩, hbytes⟩ := hm
  by_cases hlt : i < left.length
  · rcases hbytes i hlt with ⟨w, hw', he⟩ | ⟨w, hw', he⟩
    · rw [← he, hall w hw']
    · have h1 : v[i]? = w[i]? := (hall v hv).trans (hall w hw').symm
      rw [List.getElem?_eq_none he, List.getElem?_eq_none_iff] at h1
      omega
  · rw [List.getElem?_eq_none (by omega), ← hall v hv, List.getElem?_eq_none (by omega)]

/-- What `sync()` guarantees in a state that is still usable if it is open. -/
theorem sync_safe {c₀ : Bytes} {b b' : Buf} {l₀ : List DiskEv} (hu : b.raw.closed = false → Usable b)
    (hl : b.raw.disk = l₀) (hdata : b.raw.data = lastContent c₀ l₀) (d : Device) (hd : d.Sound c₀)
    (fdatasync metadata fullFlush : Bool) (hs : Buf.sync fdatasync metadata fullFlush b = (.ok (), b'))
    (hw : .writeError ∉ b'.raw.disk) :
    b'.raw.data = pendingData b ∧ b'.writeBuf = [] ∧ Durable d b'.raw.disk (pendingData b) ∧
      ∃ k, b'.raw.disk.getLast? = some (.flushed k) ∧ (metadata = true → k ≠ .data) := by
  have hg := Grows.steps.bSync fdatasync metadata fullFlush b
  rw [hs] at hg
  obtain ⟨l, g1, g2⟩ := hg
  dsimp only at g1 g2
  rw [hl] at g1
  rw [hdata, ← lastContent_append, ← g1] at g2
  unfold Buf.sync at hs
  obtain ⟨u, b1, h1, h2⟩ := bind_inv hs
  unfold Buf.onRaw at h2
  generalize hq : Raw.sync fdatasync metadata fullFlush b1.raw = q at h2
  obtain ⟨r, s⟩ := q
  cases h2
  obtain ⟨ho, l', k, k1, k2, k3⟩ := Raw.sync_ok hq
  have ho' : b.raw.closed = false := by
    have := (Fixed.steps.bFlush b).closed
    rw [h1] at this
    exact this.symm.trans ho
  obtain ⟨f1, f2, _, _⟩ := flush_done (hu ho') h1
  have hdata' : s.data = b1.raw.data := by
    have := Raw.sync_data (a := fdatasync) (m := metadata) (f := fullFlush) b1.raw
    rw [hq] at this
    exact this
  have hlast : s.disk.getLast? = some (.flushed k) := by rw [k1]; exact Raw.getLast?_append _ _ _ k2
  refine ⟨hdata'.trans f1, f2, ?_, k, hlast, k3⟩
  dsimp only at g1 g2 hw ⊢
  rw [← f1, ← hdata', g2]
  exact durable_of_flushed hd _ k hw hlast

/-- C48.  A stream is opened on a file in the state `d` and used in any way, with any answers of the system.  When `sync()`
returns, all pending bytes are in the file and safe, and with `metadata=True` the last system call was a successful
`fsync` or `F_FULLFSYNC`.
Missing: this holds if the system did not report before that it failed to write to the device.  It may report that to
`fdatasync` or `F_FULLFSYNC`, and `sync` goes on as if these calls were not supported: `C48_refuted`. -/
theorem C48_sync_partial {kind : BufKind} {n : Int} {raw : Raw} {b : Buf} (hc : Buf.create kind n raw = .ok b)
    (hp : raw.platform = .unix) (hr : raw.disk = []) (d : Device) (hd : d.Sound raw.data) (os : List AnyOp)
    (fdatasync metadata fullFlush : Bool) (b' : Buf)
    (hs : Buf.sync fdatasync metadata fullFlush (afterAll b os) = (.ok (), b')) (hw : .writeError ∉ b'.raw.disk) :
    b'.raw.data = pendingData (afterAll b os) ∧ b'.writeBuf = [] ∧
      Durable d b'.raw.disk (pendingData (afterAll b os)) ∧
      ∃ k, b'.raw.disk.getLast? = some (.flushed k) ∧ (metadata = true → k ≠ .data) := by
  obtain ⟨l, g1, g2⟩ := afterAll_grows os b
  obtain ⟨rfl, _, _, _, _⟩ := create_ok hc
  dsimp only at g1 g2
  rw [hr, List.nil_append] at g1
  exact sync_safe (fun ho => usable_after hc hp os ho) g1 g2 d hd fdatasync metadata fullFlush hs hw

-- short writes; `F_FULLFSYNC` is not supported
example : (Buf.sync true true true (afterAll (opened .writer 4 [] [.count 1, .count 2, .fail 22, .count 0])
      [.op (.write [1, 2, 3])])).1 = .ok () ∧
    (Buf.sync true true true (afterAll (opened .writer 4 [] [.count 1, .count 2, .fail 22, .count 0])
      [.op (.write [1, 2, 3])])).2.raw.disk = [.content [1], .content [1, 2, 3], .flushed .metadata] := by decide +kernel

/-- The history of ordinary calls. -/
theorem afterAll_run (ops : List StreamOp) (b : Buf) : afterAll b (ops.map .op) = (b.run ops).2 := by
  induction ops generalizing b with
  | nil => rfl
  | cons o os ih => exact ih _

/-- The answers of the system from now on. -/
def withSched (b : Buf) (sched : List OsAns) : Buf := { b with raw := { b.raw with sched := sched } }

/-- C48 for histories: the bytes that are safe are those of the byte array with a position that describes the history
(`C23_refines_partial`), whatever the system answers to the calls made by `sync()` itself. -/
theorem C48_history_partial {k : BufKind} {n : Int} {raw : Raw} {b : Buf} (h : Opened k n raw b) (hb : Blocking raw.sched)
    (hr : raw.disk = []) (d : Device) (hd : d.Sound raw.data) (ops : List StreamOp) :
    ∃ pre post f, ops = pre ++ post ∧ Conforms k (fileOf raw) (pre.zip (b.run pre).1) f ∧
      (post = [] ∨ ∃ op rest, post = op :: rest ∧ Unsafe k f op) ∧
      ∀ (sched : List OsAns) (fdatasync metadata fullFlush : Bool) (b' : Buf),
        Buf.sync fdatasync metadata fullFlush (withSched (b.run pre).2 sched) = (.ok (), b') →
        .writeError ∉ b'.raw.disk → Durable d b'.raw.disk f.data := by
  obtain ⟨pre, post, f, e1, e2, e3, e4, e5⟩ := Buf.run_R ops b _ (h.R hb)
  rw [h.kind] at e2 e5
  refine ⟨pre, post, f, e1, e2, e5, ?_⟩
  intro sched a m fl b' hs hw
  have hl := e3.live
  have hg : Grows b.raw (b.run pre).2.raw := by
    have := afterAll_grows (pre.map .op) b
    rwa [afterAll_run] at this
  obtain ⟨l, g1, g2⟩ := hg
  obtain ⟨rfl, _, _, _, _⟩ := create_ok h.created
  dsimp only at g1 g2
  rw [hr, List.nil_append] at g1
  have := (sync_safe (b := withSched (Buf.run _ pre).2 sched)
    (fun ho => ⟨ho, hl.unix, hl.writable, e3.reader⟩) g1 g2 d hd a m fl hs hw).2.2.1
  have hpend : pendingData (withSched (Buf.run ⟨k, n.toNat, raw, [], 0, []⟩ pre).2 sched) = f.data := by
    rw [e3.data, ← put_eq]
    unfold pendingData
    rw [landing_eq]
    simp [Raw.dest, withSched, hl.noAppend]
  rwa [hpend] at this

/-- C48: `sync()` returns if `fsync` succeeds, whether or not the other calls are supported. -/
theorem C48_completes (b : Buf) (h : Usable b) (hf : (Buf.flush b).1 = .ok ()) (fdatasync metadata fullFlush : Bool) (k : Nat)
    (rest tries : List OsAns)
    (ht : tries.length = (if fullFlush then 1 else 0) + if !metadata && fdatasync then 1 else 0)
    (hs : (Buf.flush b).2.raw.sched = tries ++ .count k :: rest) :
    (Buf.sync fdatasync metadata fullFlush b).1 = .ok () := by
  unfold Buf.sync
  have hfix := Fixed.steps.bFlush b
  rw [PyM.bind_ok (show Buf.flush b = (.ok (), (Buf.flush b).2) from Prod.ext hf rfl)]
  exact Raw.sync_completes (hfix.closed.trans h.opened) (hfix.platform.trans h.unix) _ _ _ k rest tries ht hs

-- neither `F_FULLFSYNC` nor `fdatasync` are supported
example : (Buf.sync true false true { opened .writer 4 [] [.count 1, .fail 25, .fail 38, .count 0] with writeBuf := [65] }).1 =
    .ok () := by decide +kernel

/-- C48 is false: `sync(metadata=False)` ignores that `fdatasync` failed to write, calls `fsync`, which does not report
that error again, and returns. -/
theorem C48_refuted : ∃ (raw : Raw) (b b' : Buf) (d : Device), Buf.create .writer 4 raw = .ok b ∧ raw.platform = .unix ∧
    raw.disk = [] ∧ d.Sound raw.data ∧
    Buf.sync true false false (afterAll b [.op (.write [65])]) = (.ok (), b') ∧
    pendingData (afterAll b [.op (.write [65])]) = [65] ∧ (d.after b'.raw.disk).MayLeave [] := by
  refine ⟨rawOf [] [.count 1, .fail 5, .count 0], opened .writer 4 [] [.count 1, .fail 5, .count 0], _, ⟨[], [[]]⟩, rfl,
    rfl, rfl, ⟨rfl, rfl⟩, rfl, by decide +kernel, ⟨[], ?_, rfl⟩, by simp⟩
  decide +kernel

end Verif.Props
