import Verif.Lemmas.BufferedInto
import Verif.Props.Buffered

/-!
# C64 and C65: `readinto`, lines and `writelines` of buffered streams
-/

namespace Verif.Props

open Verif Verif.Spec

/-- A state of a stream in the middle of a history that has only had the calls for which C23 holds: `f` is the file as
the user of the stream sees it. -/
def Midway (k : BufKind) (b : Buf) (f : File) : Prop :=
  ∃ (n : Int) (raw : Raw) (b0 : Buf) (ops : List StreamOp), Opened k n raw b0 ∧ Blocking raw.sched ∧
    b = (b0.run ops).2 ∧ Conforms k (fileOf raw) (ops.zip (b0.run ops).1) f ∧
    ∀ pre op post f', ops = pre ++ op :: post → Conforms k (fileOf raw) (pre.zip (b0.run pre).1) f' → ¬ Unsafe k f' op

theorem Allowed.unique {k : BufKind} {f f1 f2 : File} {op : StreamOp} {out : StreamOut} (h1 : Allowed k f op out f1)
    (h2 : Allowed k f op out f2) : f1 = f2 := by
  cases op <;> simp only [Allowed] at h1 h2
  case read n =>
    cases n with
    | none => split at h1 <;> simp_all
    | some z => (repeat' split at h1) <;> simp_all
  case read1 n =>
    repeat' split at h1
    · simp_all
    · simp_all
    · rename_i hk hn
      rw [if_neg hk, if_neg hn] at h2
      obtain ⟨g1, _, _, _, e1, rfl⟩ := h1
      obtain ⟨g2, _, _, _, e2, rfl⟩ := h2
      rw [e1] at e2; cases e2; rfl
  case peek n =>
    split at h1
    · simp_all
    · rename_i hk
      rw [if_neg hk] at h2
      obtain ⟨g1, _, _, e1, rfl⟩ := h1
      obtain ⟨g2, _, _, e2, rfl⟩ := h2
      rfl
  case readline n =>
    repeat' split at h1
    · simp_all
    · simp_all
    · rename_i hk hn
      rw [if_neg hk, if_neg hn] at h2
      obtain ⟨g1, _, e1, rfl⟩ := h1
      obtain ⟨g2, _, e2, rfl⟩ := h2
      rw [e1] at e2; cases e2; rfl
  case write d => split at h1 <;> simp_all
  case seek o w => split at h1 <;> simp_all
  case truncate n =>
    cases n with
    | none => split at h1 <;> simp_all
    | some z => (repeat' split at h1) <;> simp_all
  all_goals exact h1.2.trans h2.2.symm

theorem Conforms.unique {k : BufKind} {f f1 f2 : File} {h : List (StreamOp × StreamOut)} (h1 : Conforms k f h f1)
    (h2 : Conforms k f h f2) : f1 = f2 := by
  induction h1 with
  | nil => cases h2; rfl
  | cons ha _ ih =>
    cases h2 with
    | cons hb hc => rw [← Allowed.unique ha hb] at hc; exact ih hc

theorem Midway.R {k : BufKind} {b : Buf} {f : File} (h : Midway k b f) : Buf.R b f ∧ b.kind = k := by
  obtain ⟨n, raw, b0, ops, h1, h2, rfl, h4, h5⟩ := h
  obtain ⟨pre, post, f', e1, e2, e3, e4, e5⟩ := Buf.run_R ops b0 _ (h1.R h2)
  rw [h1.kind] at e2 e4 e5
  rcases e5 with rfl | ⟨op, rest, rfl, hu⟩
  · rw [List.append_nil] at e1
    subst e1
    rw [Conforms.unique h4 e2]
    exact ⟨e3, e4⟩
  · exact absurd hu (h5 pre op rest f' e1 e2)

/-- From this state on, the stream behaves like the file `f`: the results of every further history are those of the
reference up to the first call in `Unsafe`. -/
def Behaves (k : BufKind) (b : Buf) (f : File) : Prop :=
  ∀ ops, ∃ pre post f', ops = pre ++ post ∧ Conforms k f (pre.zip (b.run pre).1) f' ∧
    (post = [] ∨ ∃ op rest, post = op :: rest ∧ Unsafe k f' op)

theorem behaves {k : BufKind} {b : Buf} {f : File} (h : Buf.R b f) (hk : b.kind = k) : Behaves k b f := by
  intro ops
  obtain ⟨pre, post, f', e1, e2, _, _, e5⟩ := Buf.run_R ops b f h
  rw [hk] at e2 e5
  exact ⟨pre, post, f', e1, e2, e5⟩

/-! ## C64: `readinto` -/

/-- The contract of `readinto`: the next bytes of the file are stored at the start of the buffer and the rest of the
buffer is untouched; `readinto` stores as many as there is place for, `readinto1` at least one. -/
structure Filled (once : Bool) (rest dst dst' : Bytes) (n : Nat) : Prop where
  stored : dst' = rest.take n ++ dst.drop n
  fits : n ≤ dst.length
  most : n ≤ rest.length
  full : once = false → n = min dst.length rest.length
  progress : n = 0 → dst = [] ∨ rest = []

open Buf.Keeps in
theorem Keeps.readintoLoop (once : Bool) (fuel : Nat) : ∀ dst w, Buf.Keeps (Buf.readintoLoop once fuel dst w) := by
  induction fuel with
  | zero => intro dst w; exact pure _
  | succ fuel ih =>
    intro dst w
    unfold Buf.readintoLoop
    refine ite (bind ?_ fun r => ite (pure _) (bind ?_ fun q => ite (pure _) (ih _ _))) (pure _)
    · intro b; unfold Buf.copyOut; dsimp only
      repeat' split
      all_goals exact ⟨rfl, rfl⟩
    · intro b; unfold Buf.readMore
      repeat' split
      · exact (onRaw _).bind (fun _ => pure _) b
      · exact ⟨rfl, rfl⟩
      · exact (peekUnlocked 1).bind (fun _ => pure _) b

open Buf.Keeps in
theorem Keeps.readinto (once : Bool) (dst : Bytes) : Buf.Keeps (Buf.readinto once dst) := by
  have h : Buf.Keeps (Buf.readerReadinto once dst) :=
    checkClosed.bind fun _ => ite (pure _) (readintoLoop once _ _ _)
  intro b
  unfold Buf.readinto
  split
  · exact ⟨rfl, rfl⟩
  · exact h b
  · exact flush.bind (fun _ => h) b

/-- C64: whenever `readinto` or `readinto1` returns, the contract holds and the stream goes on after the bytes that were
stored; `readinto1` always returns, `readinto` may otherwise only raise `ValueError` (which it should not: `C64_refuted`).
Missing: that `readinto` always returns; see `C64_returns_partial`. -/
theorem C64_readinto_partial {k : BufKind} {b : Buf} {f : File} (h : Midway k b f) (hk : k ≠ .writer) (once : Bool)
    (dst : Bytes) :
    (∃ n dst', (Buf.readinto once dst b).1 = .ok (n, dst') ∧ Filled once f.rest dst dst' n ∧
      Behaves k (Buf.readinto once dst b).2 { f with pos := f.pos + n, ahead := true }) ∨
    (once = false ∧ (Buf.readinto once dst b).1 = .error .valueError) := by
  obtain ⟨hR, rfl⟩ := h.R
  have hkeep := (Keeps.readinto once dst b).1
  obtain ⟨r, b', e1, e2⟩ := Buf.readinto_R once hR hk dst
  rw [e1] at hkeep ⊢
  rcases e2 with ⟨e2, e3⟩ | ⟨n, e2, e3, e4, e5, e6, e7⟩
  · exact Or.inr ⟨e3, e2⟩
  · exact Or.inl ⟨n, _, e2, ⟨rfl, e3, e4, e5, e6⟩, behaves e7 hkeep⟩

/-- C64: `readinto1` always returns. -/
theorem C64_readinto1 {k : BufKind} {b : Buf} {f : File} (h : Midway k b f) (hk : k ≠ .writer) (dst : Bytes) :
    ∃ n dst', (Buf.readinto true dst b).1 = .ok (n, dst') ∧ Filled true f.rest dst dst' n ∧
      Behaves k (Buf.readinto true dst b).2 { f with pos := f.pos + n, ahead := true } := by
  rcases C64_readinto_partial h hk true dst with h | ⟨h, _⟩
  · exact h
  · cases h

/-- A call leaves the schedule empty. -/
def Quiet {σ α : Type} (sched : σ → List OsAns) (m : PyM σ α) : Prop := ∀ s, sched s = [] → sched (m s).2 = []

theorem Quiet.bind {σ α β : Type} {sched : σ → List OsAns} {m : PyM σ α} {g : α → PyM σ β} (hm : Quiet sched m)
    (hg : ∀ a, Quiet sched (g a)) : Quiet sched (m >>= g) := by
  intro s hs
  have h1 := hm s hs
  rw [PyM.bind_apply]
  generalize m s = p at *
  obtain ⟨r, s'⟩ := p
  cases r with
  | ok a => exact hg a s' h1
  | error e => exact h1

theorem quiet_write (buf : Bytes) : Quiet Raw.sched (Raw.write buf) := by
  have hos : ∀ e, Quiet Raw.sched (Raw.osWrite e buf) := by
    intro e s hs
    unfold Raw.osWrite Raw.nextAns
    rw [hs]
    exact hs
  refine Quiet.bind ?_ fun _ => Quiet.bind ?_ fun _ => Quiet.bind ?_ fun r => ?_
  · intro s hs; unfold Raw.checkClosed; split <;> exact hs
  · intro s hs; unfold Raw.checkWritable
    repeat' split
    all_goals exact hs
  · intro s hs
    unfold Raw.innerWrite
    split
    · exact hos _ s hs
    · refine Quiet.bind (sched := Raw.sched) ?_ (fun _ => Quiet.bind ?_ fun _ => Quiet.bind (hos _) fun _ => fun _ h => h) s hs
      · intro s hs
        unfold PyM.when
        split
        · have h := (by unfold Raw.innerSeek; dsimp only; repeat' split
                        all_goals exact hs : (Raw.innerSeek 0 .fin s).2.sched = [])
          generalize Raw.innerSeek 0 .fin s = p at *
          obtain ⟨r, s'⟩ := p
          cases r <;> exact h
        · exact hs
      · intro s hs; unfold Raw.innerTell; split <;> exact hs
  · intro s hs
    repeat' split
    all_goals exact hs

theorem quiet_flush : Quiet (fun b : Buf => b.raw.sched) Buf.flush := by
  have hon : ∀ {α : Type} (m : PyM Raw α), Quiet Raw.sched m → Quiet (fun b : Buf => b.raw.sched) (Buf.onRaw m) :=
    fun m hm b hb => hm b.raw hb
  have hclosed : Quiet (fun b : Buf => b.raw.sched) Buf.checkClosed := by
    intro b hb; unfold Buf.checkClosed; split <;> exact hb
  have hloop : ∀ fuel, Quiet (fun b : Buf => b.raw.sched) (Buf.flushLoop fuel) := by
    intro fuel
    induction fuel with
    | zero => exact fun _ h => h
    | succ fuel ih =>
      intro b hb
      unfold Buf.flushLoop
      split
      · exact hb
      · refine Quiet.bind (hon _ (quiet_write _)) (fun n => Quiet.bind ?_ fun _ => ih) b hb
        unfold Buf.dropWritten
        split
        · exact fun _ h => h
        · intro b hb; dsimp only; split <;> exact hb
  intro b hb
  unfold Buf.flush
  split
  · refine Quiet.bind hclosed (fun _ => hon _ ?_) b hb
    intro s hs; unfold Raw.flush Raw.checkClosed; split <;> exact hs
  · exact Quiet.bind hclosed (fun _ => Quiet.bind (fun _ h => h) fun _ => hloop _) b hb

/-- C64: on a file whose reads are answered in full, `readinto` returns if nothing was read since the last movement. -/
theorem C64_returns_partial {k : BufKind} {b : Buf} {f : File} (h : Midway k b f) (hk : k ≠ .writer) (hs : b.raw.sched = [])
    (ha : f.ahead = false) (dst : Bytes) :
    ∃ n dst', (Buf.readinto false dst b).1 = .ok (n, dst') ∧ Filled false f.rest dst dst' n ∧
      Behaves k (Buf.readinto false dst b).2 { f with pos := f.pos + n, ahead := true } := by
  obtain ⟨hR, rfl⟩ := h.R
  have hkeep := (Keeps.readinto false dst b).1
  have key : ∃ r b', Buf.readinto false dst b = (r, b') ∧ Buf.IntoDone false f dst r b' := by
    unfold Buf.readinto
    split
    · rename_i hc; exact absurd hc hk
    · rename_i hc
      obtain ⟨r, b', h1, h2⟩ := Buf.readerReadinto_R false hR (hR.reader hc) hk dst
      refine ⟨r, b', h1, h2.resolve_left ?_⟩
      rintro ⟨_, _, h3⟩
      exact h3 ⟨hs, Or.inl ⟨rfl, Or.inl (by simp [Buf.extra, hR.ahead ha])⟩⟩
    · obtain ⟨b1, g1, g2, g3, g4, g5⟩ := Buf.flush_R hR
      rw [PyM.bind_ok g1]
      obtain ⟨r, b', h1, h2⟩ := Buf.readerReadinto_R false g2 g3 (by rw [g4]; exact hk) dst
      refine ⟨r, b', h1, h2.resolve_left ?_⟩
      rintro ⟨_, _, h3⟩
      refine h3 ⟨?_, Or.inl ⟨rfl, Or.inl (by simp [Buf.extra, g2.ahead ha])⟩⟩
      have := quiet_flush b hs
      rw [g1] at this
      exact this
  obtain ⟨r, b', e1, n, e2, e3, e4, e5, e6, e7⟩ := key
  rw [e1] at hkeep ⊢
  exact ⟨n, _, e2, ⟨rfl, e3, e4, e5, e6⟩, behaves e7 hkeep⟩

/-- The claim of C64 without the restriction. -/
def ReadintoAlways : Prop :=
  ∀ {k : BufKind} {b : Buf} {f : File}, Midway k b f → k ≠ .writer → ∀ dst,
    ∃ n dst', (Buf.readinto false dst b).1 = .ok (n, dst') ∧ Filled false f.rest dst dst' n

/-- States of short histories in which nothing was cut and no seek failed. -/
theorem midway_run {k : BufKind} {n : Nat} (hn : 0 < n) {data : Bytes} {sched : List OsAns} (hb : Blocking sched)
    (ops : List StreamOp) (hops : ∀ op ∈ ops, ∀ f, ¬ Unsafe k f op) :
    ∃ f, Midway k ((opened k n data sched).run ops).2 f := by
  have ho := opened_ok k n hn data sched
  obtain ⟨pre, post, f, rfl, e2, e3, _, _⟩ := C23_refines_partial ho hb ops
  have hpost : post = [] := by
    rcases e3 with h | ⟨op, rest, rfl, hu⟩
    · exact h
    · exact absurd hu (hops op (by simp) f)
  rw [hpost, List.append_nil] at *
  refine ⟨f, n, _, _, pre, ho, hb, rfl, e2, ?_⟩
  intro p op q f' h1 _
  exact hops op (by rw [h1]; simp) f'

-- the hypotheses of C64, in a state with bytes read ahead
example : ∃ f, Midway .random ((opened .random 4 digits [.count 3]).run [.write [65], .read1 1, .tell]).2 f :=
  midway_run (by decide) (by simp [Blocking]) _ (by simp [Unsafe])

example : (Buf.readinto false [0, 0, 0] ((opened .random 4 digits [.count 3]).run [.write [65], .read1 1, .tell]).2).1 =
    .ok (3, [50, 51, 52]) := by decide +kernel

/-- C64 is false: after one byte of a line of eight was read, `readinto` with a buffer of eight bytes raises
`ValueError`. -/
theorem C64_refuted : ¬ ReadintoAlways := by
  intro hall
  obtain ⟨f, hf⟩ := midway_run (k := .reader) (n := 8) (by decide) (data := digits ++ digits) (sched := []) (by simp [Blocking])
    [.read (some 1)] (by simp [Unsafe])
  obtain ⟨n, dst', h, _⟩ := hall hf (by decide) (List.replicate 8 0)
  have : (Buf.readinto false (List.replicate 8 0) ((opened .reader 8 (digits ++ digits) []).run [.read (some 1)]).2).1 =
      .error .valueError := by decide +kernel
  rw [this] at h
  cases h

/-- ... and also as the first call, if the operating system answers with fewer bytes than asked for. -/
theorem C64_short_refuted : (Buf.readinto false [0, 0, 0, 0] (opened .reader 8 digits [.count 2])).1 = .error .valueError := by
  decide +kernel

/-! ## C65: lines -/

theorem flatten_linesOf (data : Bytes) : (linesOf data).flatten = data := by
  induction data with
  | nil => rfl
  | cons c cs ih =>
    unfold linesOf
    split
    · simp [ih]
    · split
      · rename_i h; rw [h] at ih; simp at ih; simp [← ih]
      · rename_i h; rw [h] at ih; simp only [List.flatten_cons] at ih ⊢; simp [← ih]

/-- The reference is right: every line is non-empty, with a newline at its end only, and only the last may lack it. -/
theorem linesOf_single (data : Bytes) : ∀ l ∈ linesOf data, l ≠ [] ∧ (10 : Byte) ∉ l.dropLast := by
  induction data with
  | nil => simp [linesOf]
  | cons c cs ih =>
    unfold linesOf
    split
    · intro l hl
      rcases List.mem_cons.1 hl with rfl | hl
      · simp
      · exact ih l hl
    · rename_i hc
      split
      · simp
      · rename_i l ls h
        rw [h] at ih
        intro m hm
        rcases List.mem_cons.1 hm with rfl | hm
        · have := ih l (by simp)
          refine ⟨by simp, ?_⟩
          rw [List.dropLast_cons_of_ne_nil this.1]
          intro h10
          rcases List.mem_cons.1 h10 with h | h
          · exact hc h.symm
          · exact this.2 h
        · exact ih m (List.mem_cons_of_mem _ hm)

theorem linesOf_ended (data : Bytes) : ∀ l ∈ (linesOf data).dropLast, l.getLast? = some 10 := by
  induction data with
  | nil => simp [linesOf]
  | cons c cs ih =>
    unfold linesOf
    split
    · rename_i hc
      intro l hl
      cases h : linesOf cs with
      | nil => rw [h] at hl; simp at hl
      | cons m ms =>
        rw [h, List.dropLast_cons_of_ne_nil (by simp)] at hl
        rcases List.mem_cons.1 hl with rfl | hl
        · simp [hc]
        · exact ih l (by rw [h]; exact hl)
    · split
      · simp
      · rename_i l ls h
        rw [h] at ih
        intro m hm
        cases ls with
        | nil => simp at hm
        | cons l2 ls =>
          rw [List.dropLast_cons_of_ne_nil (by simp)] at hm ih
          rcases List.mem_cons.1 hm with rfl | hm
          · have := ih l (by simp)
            cases l with
            | nil => simp at this
            | cons a l => rw [List.getLast?_cons_cons]; exact this
          · exact ih m (List.mem_cons_of_mem _ hm)

/-- What `readline()` may return is the first line. -/
theorem first_line {line : Bytes} : ∀ {rest : Bytes}, Line (-1) rest line →
    linesOf rest = if line = [] then [] else line :: linesOf (rest.drop line.length) := by
  induction line with
  | nil =>
    intro rest h
    rcases h.stop with h1 | h1 | h1
    · simp at h1
    · rw [← h1]; rfl
    · omega
  | cons c l ih =>
    intro rest h
    rw [if_neg (by simp)]
    obtain ⟨t, ht⟩ := h.isPrefix
    have hrest : rest = c :: (l ++ t) := by rw [← ht]; rfl
    subst hrest
    rw [List.length_cons, List.drop_succ_cons, List.drop_left]
    cases hl : l with
    | nil =>
      subst hl
      conv => lhs; unfold linesOf
      by_cases hc : c = 10
      · rw [if_pos hc]; rfl
      · rw [if_neg hc]
        rcases h.stop with h1 | h1 | h1
        · simp at h1; exact absurd h1 hc
        · have : t = [] := by simpa using h1
          subst this; rfl
        · simp at h1
    | cons d l' =>
      have hl0 : l ≠ [] := by rw [hl]; simp
      have hs := h.single
      rw [List.dropLast_cons_of_ne_nil hl0] at hs
      have hc : c ≠ 10 := fun h0 => hs (by rw [h0]; simp)
      have htail : Line (-1) (l ++ t) l := by
        refine ⟨⟨t, rfl⟩, fun h0 => hs (List.mem_cons_of_mem _ h0), ?_, fun h0 => by omega⟩
        rcases h.stop with h1 | h1 | h1
        · left
          rw [hl, List.getLast?_cons_cons] at h1
          rw [hl]; exact h1
        · right; left
          simpa using h1
        · omega
      have := ih htail
      rw [if_neg hl0, List.drop_left] at this
      rw [← hl]
      conv => lhs; unfold linesOf
      rw [if_neg hc, this]

theorem first_prefix {line : Bytes} : ∀ {rest : Bytes}, line <+: rest → (10 : Byte) ∉ line.dropLast →
    line <+: (linesOf rest).headD [] := by
  induction line with
  | nil => intro rest _ _; exact List.nil_prefix
  | cons c l ih =>
    intro rest h hs
    obtain ⟨t, ht⟩ := h
    have hrest : rest = c :: (l ++ t) := by rw [← ht]; rfl
    subst hrest
    by_cases hl : l = []
    · unfold linesOf
      subst hl
      split
      · simp
      · split
        · simp
        · simp
    · rw [List.dropLast_cons_of_ne_nil hl] at hs
      have hc : c ≠ 10 := fun h0 => hs (by rw [h0]; simp)
      have h1 := ih (rest := l ++ t) ⟨t, rfl⟩ fun h0 => hs (List.mem_cons_of_mem _ h0)
      unfold linesOf
      rw [if_neg hc]
      cases h2 : linesOf (l ++ t) with
      | nil => rw [h2] at h1; exact absurd (List.prefix_nil.1 h1) hl
      | cons m ms => rw [h2] at h1; simpa using h1

theorem readline_first {b : Buf} {f : File} (h : Buf.R b f) (hk : b.kind ≠ .writer) :
    ∃ line b', Buf.readline (-1) b = (.ok line, b') ∧ Line (-1) f.rest line ∧ b'.kind = b.kind ∧
      Buf.R b' { f with pos := f.pos + line.length, ahead := true } := by
  obtain ⟨f', h1, h2⟩ := Buf.readline_R h (-1)
  have h3 := (Buf.Keeps.readline (-1) b).1
  generalize Buf.readline (-1) b = p at *
  obtain ⟨r, b'⟩ := p
  simp only [Allowed, hk, if_false, show ¬ (-1 : Int) = 0 by decide] at h1
  obtain ⟨line, g1, g2, rfl⟩ := h1
  refine ⟨line, b', ?_, g1, h3, h2⟩
  cases r with
  | ok x => simp only [StreamOut.ofBytes, StreamOut.bytes.injEq] at g2; rw [g2]
  | error e => simp [StreamOut.ofBytes] at g2

/-- C65: `readline()` returns the next line. -/
theorem C65_readline {k : BufKind} {b : Buf} {f : File} (h : Midway k b f) (hk : k ≠ .writer) :
    (Buf.readline (-1) b).1 = .ok ((linesOf f.rest).headD []) ∧
      Behaves k (Buf.readline (-1) b).2 { f with pos := f.pos + ((linesOf f.rest).headD []).length, ahead := true } := by
  obtain ⟨hR, rfl⟩ := h.R
  obtain ⟨line, b', h1, h2, h3, h4⟩ := readline_first hR hk
  have : (linesOf f.rest).headD [] = line := by
    rw [first_line h2]
    split
    · rename_i h; rw [h]; rfl
    · rfl
  rw [h1, this]
  exact ⟨rfl, behaves h4 h3⟩

/-- The lines that `readlines(hint)` takes: up to the one with which their total length reaches the hint. -/
def upTo (hint : Option Nat) : Nat → List Bytes → List Bytes
  | _, [] => []
  | n, l :: ls => if hint.any (· ≤ n + l.length) then [l] else l :: upTo hint (n + l.length) ls

theorem linesLoop_R (hint : Option Nat) (fuel : Nat) : ∀ (n : Nat) {b : Buf} {f : File}, Buf.R b f → b.kind ≠ .writer →
    f.rest.length < fuel →
    ∃ b', Buf.linesLoop hint fuel n b = (.ok (upTo hint n (linesOf f.rest)), b') ∧ b'.kind = b.kind ∧
      Buf.R b' { f with pos := f.pos + (upTo hint n (linesOf f.rest)).flatten.length, ahead := true } := by
  induction fuel with
  | zero => intro n b f _ _ h; omega
  | succ fuel ih =>
    intro n b f h hk hf
    obtain ⟨line, b1, h1, h2, h3, h4⟩ := readline_first h hk
    unfold Buf.linesLoop
    rw [PyM.bind_ok h1, first_line h2]
    by_cases hl : line = []
    · subst hl
      rw [if_pos rfl, if_pos rfl]
      exact ⟨b1, rfl, h3, h4⟩
    · rw [if_neg hl, if_neg hl]
      unfold upTo
      by_cases hh : hint.any (· ≤ n + line.length)
      · rw [if_pos hh, if_pos hh]
        exact ⟨b1, rfl, h3, by simpa using h4⟩
      · rw [if_neg hh, if_neg hh]
        have hrest : File.rest { f with pos := f.pos + line.length, ahead := true } = f.rest.drop line.length :=
          Buf.rest_ahead f _
        have hpos : 0 < line.length := List.length_pos_iff.2 hl
        have hle := h2.isPrefix.length_le
        obtain ⟨b2, g1, g2, g3⟩ := ih (n + line.length) h4 (by rw [h3]; exact hk) (by rw [hrest, List.length_drop]; omega)
        rw [hrest] at g1 g3
        rw [PyM.bind_ok g1]
        refine ⟨b2, rfl, g2.trans h3, ?_⟩
        rw [List.flatten_cons, List.length_append, ← Nat.add_assoc]
        exact g3

theorem rest_fuel {b : Buf} {f : File} (h : Buf.R b f) : f.rest.length < b.raw.data.length + b.readBuf.length + 1 := by
  unfold File.rest
  have hp := h.pos
  rw [List.length_drop, h.data]
  rcases h.excl with he | he
  · have : b.extra = 0 := by simp [Buf.extra, he]
    rw [length_writeAt]
    split <;> omega
  · rw [he, writeAt_nil]; omega

theorem upTo_none (n : Nat) (ls : List Bytes) : upTo none n ls = ls := by
  induction ls generalizing n with
  | nil => rfl
  | cons l ls ih => unfold upTo; simp [ih]

/-- The lines taken with a hint are the first ones; without the last of them the hint is not reached, with it it is, or
they are all. -/
theorem upTo_hint (h : Nat) (ls : List Bytes) : ∀ n, n < h → ∃ j, upTo (some h) n ls = ls.take j ∧ j ≤ ls.length ∧
    (j < ls.length → h ≤ n + (ls.take j).flatten.length) ∧ n + (ls.take (j - 1)).flatten.length < h := by
  induction ls with
  | nil => intro n hn; exact ⟨0, by simp [upTo], by simp, by simp, by simpa using hn⟩
  | cons l ls ih =>
    intro n hn
    unfold upTo
    by_cases hh : h ≤ n + l.length
    · rw [if_pos (by simpa using hh)]
      exact ⟨1, by simp, by simp, fun _ => by simpa using hh, by simpa using hn⟩
    · rw [if_neg (by simpa using hh)]
      obtain ⟨j, e1, e2, e3, e4⟩ := ih (n + l.length) (by omega)
      refine ⟨j + 1, by rw [e1]; rfl, by simpa using e2, ?_, ?_⟩
      · intro hj
        have := e3 (by simpa using hj)
        simp only [List.take_succ_cons, List.flatten_cons, List.length_append]
        omega
      · cases j with
        | zero => simpa using hn
        | succ j =>
          simp only [Nat.add_sub_cancel] at e4 ⊢
          simp only [List.take_succ_cons, List.flatten_cons, List.length_append]
          omega

/-- C65: `readlines(hint)` returns the first of the following lines, up to the one with which their total length reaches
the hint. -/
theorem C65_readlines_hint {k : BufKind} {b : Buf} {f : File} (h : Midway k b f) (hk : k ≠ .writer) (hint : Nat)
    (hp : 0 < hint) :
    ∃ j, (Buf.readlines (some hint) b).1 = .ok ((linesOf f.rest).take j) ∧
      (j < (linesOf f.rest).length → hint ≤ ((linesOf f.rest).take j).flatten.length) ∧
      ((linesOf f.rest).take (j - 1)).flatten.length < hint ∧
      Behaves k (Buf.readlines (some hint) b).2
        { f with pos := f.pos + ((linesOf f.rest).take j).flatten.length, ahead := true } := by
  obtain ⟨hR, rfl⟩ := h.R
  obtain ⟨b', h1, h2, h3⟩ := linesLoop_R (some hint) _ 0 hR hk (rest_fuel hR)
  obtain ⟨j, e1, e2, e3, e4⟩ := upTo_hint hint (linesOf f.rest) 0 hp
  have : Buf.readlines (some hint) b = (.ok (upTo (some hint) 0 (linesOf f.rest)), b') := by
    unfold Buf.readlines
    rw [PyM.bind_ok (Buf.checkClosed_ok hR.live.opened)]
    dsimp only
    rw [if_neg (by omega), Int.toNat_natCast]
    exact h1
  rw [e1] at h3 this
  rw [Nat.zero_add] at e3 e4
  rw [this]
  exact ⟨j, rfl, e3, e4, behaves h3 h2⟩

/-- C65: `readlines()` and `list(f)` return all following lines; after them the stream is at the end of the file. -/
theorem C65_readlines {k : BufKind} {b : Buf} {f : File} (h : Midway k b f) (hk : k ≠ .writer) (hint : Option Int)
    (hn : ∀ z, hint = some z → z ≤ 0) :
    (Buf.readlines hint b).1 = .ok (linesOf f.rest) ∧
      Behaves k (Buf.readlines hint b).2 { f with pos := f.pos + f.rest.length, ahead := true } := by
  obtain ⟨hR, rfl⟩ := h.R
  obtain ⟨b', h1, h2, h3⟩ := linesLoop_R none _ 0 hR hk (rest_fuel hR)
  rw [upTo_none] at h1 h3
  rw [flatten_linesOf] at h3
  have : Buf.readlines hint b = (.ok (linesOf f.rest), b') := by
    unfold Buf.readlines
    rw [PyM.bind_ok (Buf.checkClosed_ok hR.live.opened)]
    cases hint with
    | none => exact h1
    | some z => dsimp only; rw [if_pos (hn z rfl)]; exact h1
  rw [this]
  exact ⟨rfl, behaves h3 h2⟩

example : (Buf.readlines none ((opened .reader 3 [1, 10, 2, 3, 4, 5, 10, 10, 6] [.count 1]).run [.seek 1 .set]).2).1 =
    .ok [[10], [2, 3, 4, 5, 10], [10], [6]] := by decide +kernel

example : ∃ f, Midway .reader ((opened .reader 3 [1, 10, 2, 3, 4, 5, 10, 10, 6] [.count 1]).run [.read (some 1)]).2 f :=
  midway_run (by decide) (by simp [Blocking]) _ (by simp [Unsafe])

/-- C65: what `readline(size)` returns: a non-empty part of one line, that is cut only when `size` bytes are there, and
is shorter than `2 * size`.
Missing: that it has at most `size` bytes (false: `C65_size_refuted`). -/
theorem C65_size_partial {k : BufKind} {b : Buf} {f : File} (h : Midway k b f) (hk : k ≠ .writer) (size : Nat)
    (hs : 0 < size) :
    ∃ line, (Buf.readline size b).1 = .ok line ∧ line <+: (linesOf f.rest).headD [] ∧ line.length < 2 * size ∧
      (line = (linesOf f.rest).headD [] ∨ size ≤ line.length) ∧
      Behaves k (Buf.readline size b).2 { f with pos := f.pos + line.length, ahead := true } := by
  obtain ⟨hR, rfl⟩ := h.R
  obtain ⟨f', h1, h2⟩ := Buf.readline_R hR size
  have h3 := (Buf.Keeps.readline size b).1
  generalize Buf.readline size b = p at *
  obtain ⟨r, b'⟩ := p
  simp only [Allowed, hk, if_false, show ¬ (size : Int) = 0 by omega] at h1
  obtain ⟨line, g1, g2, rfl⟩ := h1
  have hb := g1.bound (by omega)
  have hr : r = .ok line := by
    cases r with
    | ok x => simp only [StreamOut.ofBytes, StreamOut.bytes.injEq] at g2; rw [g2]
    | error e => simp [StreamOut.ofBytes] at g2
  refine ⟨line, hr, first_prefix g1.isPrefix g1.single, by omega, ?_, behaves h2 h3⟩
  by_cases hsz : size ≤ line.length
  · exact Or.inr hsz
  · left
    have hl : Line (-1) f.rest line := by
      refine ⟨g1.isPrefix, g1.single, ?_, fun h0 => by omega⟩
      rcases g1.stop with h | h | h
      · exact Or.inl h
      · exact Or.inr (Or.inl h)
      · omega
    rw [first_line hl]
    split
    · rename_i h; rw [h]; rfl
    · rfl

/-- The documented limit of `readline(size)`. -/
def SizeLimit : Prop :=
  ∀ {k : BufKind} {b : Buf} {f : File}, Midway k b f → ∀ size : Nat, ∀ line, (Buf.readline size b).1 = .ok line →
    line.length ≤ size

/-- C65 is false for a size: with a buffer of two bytes `readline(3)` returns four. -/
theorem C65_size_refuted : ¬ SizeLimit := by
  intro hall
  obtain ⟨f, hf⟩ := midway_run (k := .reader) (n := 2) (by decide) (data := digits) (sched := []) (by simp [Blocking])
    [] (by simp)
  have h : (Buf.readline 3 (opened .reader 2 digits [])).1 = .ok [48, 49, 50, 51] := by decide +kernel
  exact absurd (hall hf 3 _ h) (by decide)

/-! ## `writelines` -/

theorem put_append (data : Bytes) (off : Nat) (a b : Bytes) : put (put data off a) (off + a.length) b = put data off (a ++ b) := by
  rw [put_eq, put_eq, put_eq, writeAt_append]

theorem writeAll_R (ls : List Bytes) : ∀ {b : Buf} {f : File}, Buf.R b f → b.kind ≠ .reader →
    ∃ b' a, Buf.writeAll ls b = (.ok (), b') ∧ b'.kind = b.kind ∧
      Buf.R b' { f with data := put f.data f.pos ls.flatten, pos := f.pos + ls.flatten.length, ahead := a } := by
  induction ls with
  | nil =>
    intro b f h _
    exact ⟨b, f.ahead, rfl, rfl, by simpa [put] using h⟩
  | cons l ls ih =>
    intro b f h hk
    obtain ⟨f', h1, h2⟩ := Buf.write_R h l
    have h3 := (Buf.Keeps.write l b).1
    unfold Buf.writeAll
    rw [PyM.bind_apply]
    generalize Buf.write l b = p at *
    obtain ⟨r, b1⟩ := p
    simp only [Allowed, hk, if_false] at h1
    obtain ⟨g1, rfl⟩ := h1
    cases r with
    | error e => simp [StreamOut.ofNat] at g1
    | ok n =>
      obtain ⟨b', a, e1, e2, e3⟩ := ih h2 (by dsimp only at h3 ⊢; rw [h3]; exact hk)
      refine ⟨b', a, e1, e2.trans h3, ?_⟩
      dsimp only at e3
      rw [put_append, Nat.add_assoc] at e3
      rw [List.flatten_cons, List.length_append]
      exact e3

/-- C65: `writelines(lines)` stores the concatenation of the lines at the position. -/
theorem C65_writelines {k : BufKind} {b : Buf} {f : File} (h : Midway k b f) (hk : k ≠ .reader) (ls : List Bytes) :
    (Buf.writelines ls b).1 = .ok () ∧ ∃ a, Behaves k (Buf.writelines ls b).2
      { f with data := put f.data f.pos ls.flatten, pos := f.pos + ls.flatten.length, ahead := a } := by
  obtain ⟨hR, rfl⟩ := h.R
  obtain ⟨b', a, h1, h2, h3⟩ := writeAll_R ls hR hk
  have : Buf.writelines ls b = (.ok (), b') := by
    unfold Buf.writelines
    rw [PyM.bind_ok (Buf.checkClosed_ok hR.live.opened)]
    exact h1
  rw [this]
  exact ⟨rfl, a, behaves h3 h2⟩

example : ∃ f, Midway .writer ((opened .writer 3 digits [.count 1]).run [.write [1, 2, 3, 4]]).2 f :=
  midway_run (by decide) (by simp [Blocking]) _ (by simp [Unsafe])

end Verif.Props
