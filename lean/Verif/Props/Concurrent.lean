import Verif.Lemmas.ConcurrentInv
import Verif.Props.Utilities

/-!
# Concurrent calls of the utility functions: C110
-/

set_option autoImplicit false

namespace Verif.Props

open Verif Verif.Spec

variable {S : Setting}

/-! ## One call after the other -/

theorem runs_told {u : Uid} {file : Bytes} {w : Crowd S} {tr : List Event} {log : List CallEvent}
    (h : Crowd.Runs u file w tr log) (hc : Apart tr) (hp : ∀ i k, .began i k ∈ log → k.Plain S) : Told u file w tr log := by
  induction h with
  | init => exact ⟨file, Good.init file, .nil⟩
  | step h1 h2 h3 ih =>
    exact (ih hc.left fun i k hk => hp i k (List.mem_append_left _ hk)).step hc
      (fun i k hk => hp i k (List.mem_append_right _ hk)) h2 h3

/-- C110 (partial): whatever threads and processes call the functions on a file with `locking=True`, and however their
actions mix, the results and the content of the file are those of calls that were made one after the other, in the order in
which they ended; a call of a process that was killed may have been broken off.  While no call that writes holds the lock,
the content is that after the last one of them.  Missing: two streams of one process that hold shared locks at the same time
(`C110_torn_refuted`), and text appended with an encoding that starts in another way in the middle of a file
(`C110_marks_refuted`). -/
theorem C110_serial_partial {u : Uid} {file : Bytes} {w : Crowd S} {tr : List Event} {log : List CallEvent}
    (h : Crowd.Runs u file w tr log) (hc : Apart tr) (hp : ∀ i k, .began i k ∈ log → k.Plain S) :
    ∃ c, Serial (Alone S) (Cut S) file log (fun i => (w.calls i).map Prod.fst) c ∧
      ((∀ i k ph, w.calls i = some (k, ph) → ph.Active → k.task.isLoad = true) → w.file = c) := by
  obtain ⟨c, h1, h2⟩ := runs_told h hc hp
  exact ⟨c, h2, h1.quiet⟩

/-! ## What the calls mean -/

/-- What a call does to the content `c` of the file if it is the only one. -/
def Means (S : Setting) (k : Job) (c : Bytes) (r : Result) (c' : Bytes) : Prop :=
  match k.task with
  | .load b => c' = c ∧ ∀ x, r = .ok x → b = true → x = some (.bytes c)
  | .store d _ => ∀ x, r = .ok x → x = none ∧ Stands S k.newline True d c'
  | .add d _ => ∀ x, r = .ok x → x = none ∧ ∃ b, Stands S k.newline (c = []) d b ∧ c' = c ++ b

/-- What a call that is broken off does. -/
def Breaks (k : Job) (c c' : Bytes) : Prop := k.task.isLoad = true → c' = c

/-- The system does not answer with `EAGAIN` or no bytes; calls that write have a buffer. -/
def Regular (k : Job) : Prop := FileAnswers k.io ∧ (k.task.isLoad = false → k.size ≠ 0)

theorem bind_ok_inv {α : Type} {q : Except Exn Unit} {r : Except Exn α} {x : α} (h : (q.bind fun _ => r) = .ok x) :
    q = .ok () ∧ r = .ok x := by
  cases q with
  | error e => cases h
  | ok u => exact ⟨rfl, h⟩

/-- The layers of a stream for writing. -/
theorem writer_job {k : Job} (hl : k.task.isLoad = false) (hs : k.size ≠ 0) {raw : Raw} (hsk : raw.seekable = true)
    {s : AnyStream S.codec} (h : k.layers S raw = .ok s) :
    ∃ b, Buf.create .writer k.size raw = .ok b ∧ ((k.task.binary = true ∧ s = .buf b) ∨
      (k.task.binary = false ∧ ∃ t, s = .txt t ∧ NewText (k.newline.getD .auto) S.linesep b t)) := by
  unfold Job.layers at h
  rw [if_neg hs, hl] at h
  simp only [Bool.false_eq_true, if_false] at h
  cases hb : Buf.create .writer k.size raw with
  | error e => rw [hb] at h; cases h
  | ok b =>
    rw [hb] at h
    dsimp only at h
    refine ⟨b, rfl, ?_⟩
    cases hbin : k.task.binary with
    | true => rw [hbin] at h; cases h; exact .inl ⟨rfl, rfl⟩
    | false =>
      rw [hbin] at h
      obtain ⟨t, h1, h2⟩ := txt_create (C := S.codec) (nl := k.newline.getD .auto) (line := k.line) (linesep := S.linesep) hb hsk
      rw [h1] at h
      cases h
      exact .inr ⟨rfl, t, rfl, h2⟩

/-- A call that writes and returns. -/
theorem wrote {k : Job} (hl : k.task.isLoad = false) (hs : k.size ≠ 0) {raw : Raw} (hsk : raw.seekable = true)
    (hp : raw.platform = .unix) (hpos : landing raw = raw.data.length) (h0 : raw.pos = 0 ↔ raw.data = [])
    {s s₁ s₂ : AnyStream S.codec} (h : k.layers S raw = .ok s) (h1 : Site.writeBody S.fdatasync k.data k.sync s = (.ok (), s₁))
    (h2 : AnyStream.close s₁ = (.ok (), s₂)) :
    ∃ b, Stands S k.newline (raw.data = []) k.data b ∧ s₂.theRaw.data = raw.data ++ b := by
  have h3 : PyM.tryFinally (Site.writeBody S.fdatasync k.data k.sync) AnyStream.close s = (.ok (), s₂) := by
    rw [PyM.tryFinally_apply, h1]
    dsimp only
    rw [h2]
  have hbin : k.task.binary = !k.data.isStr := by
    unfold Job.data
    generalize k.task = t at hl
    cases t <;> first | cases hl; done | rfl
  obtain ⟨b, hc, hlay⟩ := writer_job hl hs hsk h
  obtain ⟨hbeq, _, ho, _, hwr⟩ := create_ok hc
  have hbraw : b.raw = raw := by rw [hbeq]
  have hbk : b.kind = .writer := by rw [hbeq]
  have hbe : b.writeBuf = [] := by rw [hbeq]
  have hu : Usable b := by
    rw [hbeq]
    exact ⟨ho, hp, fun _ => hwr (by nofun), nofun⟩
  generalize k.data = data at *
  rcases hlay with ⟨hbi, rfl⟩ | ⟨hbi, t, rfl, hnew⟩
  · cases data with
    | text x => rw [hbin] at hbi; cases hbi
    | bytes d =>
      have hwri := buf_written hu hbk hbe h3
      exact ⟨d, rfl, by rw [hwri.data, hbraw, hpos, put_end]⟩
  · cases data with
    | bytes d => rw [hbin] at hbi; cases hbi
    | text x =>
      obtain ⟨d, enc, henc, hwri⟩ := txt_written (by rw [hnew.buf]; exact hu) (by rw [hnew.buf]; exact hbk)
        (by rw [hnew.buf]; exact hbe) h3
      rw [hnew.buf] at hwri
      refine ⟨d, ⟨t.encoder.getD S.codec.encInit, enc, ?_, ?_⟩, by rw [hwri.data, hbraw, hpos, put_end]⟩
      · rw [hnew.encoder, hbk, hbraw]
        by_cases h : raw.pos = 0
        · exact .inl ⟨h0.1 h, by rw [if_neg (fun h' => h'.2 h)]⟩
        · exact .inr ⟨fun h' => h (h0.2 h'), by rw [if_pos ⟨by nofun, h⟩]⟩
      · rw [← henc, newlines_eq, hnew.newline, hnew.linesep]

/-- Erasing the file. -/
theorem erase_inv {s s' : Raw} {n : Nat} (ho : s.closed = false) (hk : s.seekable = true) (hw : s.writable = true)
    (hp : s.platform = .unix) (h : Raw.truncate (some 0) true s = (.ok n, s')) :
    s'.data = [] ∧ s'.pos = s.pos ∧ Raw.Frame s s' := by
  rw [show (0 : Int) = ((0 : Nat) : Int) from rfl, Raw.truncate_open _ true ho hw hk,
    PyM.bind_ok (Raw.target_ok _ 0 (Or.inr rfl) ho hk)] at h
  rcases Raw.resize_unix 0 true ho hp with ⟨sched', disk', h1, _⟩ | ⟨e, sched', _, h1⟩
  · rw [PyM.bind_ok h1, Raw.size_open (s := { s with data := _, sched := sched', disk := disk' }) ho] at h
    cases h
    exact ⟨by simp, rfl, ⟨rfl, rfl, rfl, rfl, rfl, rfl⟩⟩
  · rw [PyM.bind_error h1] at h
    cases h

theorem blocks_binary {s s' : AnyStream S.codec} {r : Except Exn (List Chunk)} (h : Blocks s r s') :
    ∀ {rest : Bytes}, ReadyBinary s rest → ∀ l, r = .ok l → Chunk.join true l = .ok (.bytes rest) := by
  induction h with
  | @done s s' x h1 h2 =>
    intro rest hr l hl
    cases hl
    obtain ⟨r, s₁, g1, _, _, _, g2⟩ := hr.read
    rw [h1] at g1
    rcases g2 with ⟨g2, _⟩ | ⟨e, g2, _⟩
    · rw [g2] at g1
      cases g1
      have := h2 _ rfl
      simp only [Chunk.falsy, decide_eq_true_eq] at this
      rw [this]; rfl
    · rw [g2] at g1; cases g1
  | fail h1 => intro rest hr l hl; cases hl
  | @more s s₁ s' c r h1 h2 h3 ih =>
    intro rest hr l hl
    obtain ⟨r', s₂, g1, _, _, _, g2⟩ := hr.read
    rw [h1] at g1
    rcases g2 with ⟨g2, g3⟩ | ⟨e, g2, _⟩
    · rw [g2] at g1
      cases g1
      cases r with
      | error e => cases hl
      | ok l' =>
        cases hl
        have := ih g3 l' rfl
        simp only [Chunk.join, this, List.append_nil]
    · rw [g2] at g1; cases g1

theorem alone_means {k : Job} {c c' : Bytes} {r : Result} (hk : Regular k) (h : Alone S k c r c') : Means S k c r c' := by
  unfold Means
  cases ht : k.task with
  | load b =>
    have hl : k.task.isLoad = true := by rw [ht]; rfl
    have hst : k.task.isStore = false := by rw [ht]; rfl
    have hadd : k.task.isAdd = false := by rw [ht]; rfl
    have hbin : k.task.binary = b := by rw [ht]; rfl
    dsimp only
    cases h with
    | failed h =>
      simp only [Job.prepare, hst, Bool.false_eq_true, if_false, Prod.mk.injEq] at h
      exact ⟨h.2.symm, nofun⟩
    | @done s s₁ s₂ c₁ r q h1 h2 h3 =>
      simp only [Job.prepare, hst, Bool.false_eq_true, if_false, Prod.mk.injEq] at h1
      obtain ⟨h1, rfl⟩ := h1
      have hrd := Job.layers_reader hl h1
      have hdat : s.theRaw.data = c := by
        have := prepare_data (k := k) (pos := k.startPos c) (file := c) (s := s) (c := c)
          (by simp [Job.prepare, hst, h1])
        exact this.symm
      cases h2 with
      | write hl' _ => rw [hl] at hl'; cases hl'
      | load _ h2 =>
        rename_i r _
        have hd1 : s₁.IsReader ∧ s₁.theRaw.data = s.theRaw.data := by
          clear h1 hdat h3
          induction h2 with
          | done g _ => have := Job.read_reader hrd; rw [g] at this; exact this
          | fail g => have := Job.read_reader hrd; rw [g] at this; exact this
          | more g _ _ ih =>
            have := Job.read_reader hrd
            rw [g] at this
            exact ⟨(ih this.1).1, (ih this.1).2.trans this.2⟩
        have hd2 := Job.close_reader hd1.1
        rw [h3] at hd2
        refine ⟨hd2.2.trans (hd1.2.trans hdat), ?_⟩
        intro x hx hb
        subst hb
        obtain ⟨rfl, hx⟩ := bind_ok_inv hx
        cases r with
        | error e => cases hx
        | ok l =>
          rw [hbin] at hx
          have hready : ReadyBinary s c := by
            have hraw : Ready (k.raw c (k.startPos c)) c :=
              ⟨rfl, hl, hk.1, by simp [Job.raw, Job.startPos, hadd]⟩
            unfold Job.layers at h1
            split at h1
            · cases h1; exact .raw hraw
            · split at h1
              · cases h1
              · rename_i b hb
                cases h1
                obtain ⟨rfl, _⟩ := create_ok hb
                exact .buf rfl rfl hraw
          have := blocks_binary h2 hready l rfl
          simp only [Except.bind, this, Except.map, Except.ok.injEq] at hx
          exact hx.symm
  | store d sync =>
    have hl : k.task.isLoad = false := by rw [ht]; rfl
    have hst : k.task.isStore = true := by rw [ht]; rfl
    have hadd : k.task.isAdd = false := by rw [ht]; rfl
    have hd : k.data = d := by unfold Job.data; rw [ht]
    dsimp only
    intro x hx
    cases h with
    | failed h => cases hx
    | @done s s₁ s₂ c₁ r q h1 h2 h3 =>
      obtain ⟨rfl, rfl⟩ := bind_ok_inv hx
      generalize hr : Except.ok x = r at h2
      cases h2 with
      | load hl' _ => rw [hl] at hl'; cases hl'
      | write _ h2 =>
        rename_i r _
        cases r with
        | error e => cases hr
        | ok u =>
          cases hr
          refine ⟨rfl, ?_⟩
          simp only [Job.prepare, hst, if_true] at h1
          split at h1
          · cases h1
          · rename_i n s' htr
            obtain ⟨h1, _⟩ := Prod.mk.inj h1
            obtain ⟨e1, e2, e3⟩ := erase_inv (s := k.raw c (k.startPos c)) rfl rfl (by simp [Job.raw, hl]) rfl htr
            have e4 : s'.pos = 0 := by rw [e2]; simp [Job.raw, Job.startPos, hadd]
            have e5 : s'.append = false := e3.append.trans hadd
            obtain ⟨b, g1, g2⟩ := wrote hl (hk.2 hl) (e3.seekable.trans rfl) (e3.platform.trans rfl)
              (by rw [landing, e5, e4, e1]; rfl) (by simp [e4, e1]) h1 h2 h3
            rw [e1, List.nil_append] at g2
            rw [e1, hd] at g1
            rw [g2]
            simpa using g1
  | add d sync =>
    have hl : k.task.isLoad = false := by rw [ht]; rfl
    have hst : k.task.isStore = false := by rw [ht]; rfl
    have hadd : k.task.isAdd = true := by rw [ht]; rfl
    have hd : k.data = d := by unfold Job.data; rw [ht]
    dsimp only
    intro x hx
    cases h with
    | failed h => cases hx
    | @done s s₁ s₂ c₁ r q h1 h2 h3 =>
      obtain ⟨rfl, rfl⟩ := bind_ok_inv hx
      generalize hr : Except.ok x = r at h2
      cases h2 with
      | load hl' _ => rw [hl] at hl'; cases hl'
      | write _ h2 =>
        rename_i r _
        cases r with
        | error e => cases hr
        | ok u =>
          cases hr
          refine ⟨rfl, ?_⟩
          simp only [Job.prepare, hst, Bool.false_eq_true, if_false, Prod.mk.injEq] at h1
          have := wrote hl (hk.2 hl) (raw := k.raw c (k.startPos c)) rfl rfl
              (by simp [landing, Job.raw, hadd]) (by simp [Job.raw, Job.startPos, hadd]) h1.1 h2 h3
          rw [hd] at this
          exact this

theorem cut_breaks {k : Job} {c c' : Bytes} (h : Cut S k c c') : Breaks k c c' := by
  intro hl
  obtain ⟨ph, h⟩ := h
  have : ∀ y, Actions S k (.locked (k.startPos c), c) y → y.1.Reads ∧ y.2 = c := by
    intro y hy
    induction hy with
    | none => exact ⟨trivial, rfl⟩
    | next _ hw ih =>
      obtain ⟨g1, g2⟩ := Job.work_reads hl ih.1 hw
      exact ⟨g1, g2.trans ih.2⟩
  exact (this _ h).2

theorem serial_mono {one one' : Job → Bytes → Result → Bytes → Prop} {cut cut' : Job → Bytes → Bytes → Prop} {P : Job → Prop}
    (h1 : ∀ k c r c', P k → one k c r c' → one' k c r c') (h2 : ∀ k c c', P k → cut k c c' → cut' k c c') {c₀ c : Bytes}
    {log : List CallEvent} {m : Nat × Nat → Option Job} (h : Serial one cut c₀ log m c)
    (hp : ∀ i k, .began i k ∈ log → P k) : Serial one' cut' c₀ log m c ∧ ∀ i k, m i = some k → P k := by
  have hpre : ∀ {l l' : List CallEvent}, (∀ i k, .began i k ∈ l ++ l' → P k) → ∀ i k, .began i k ∈ l → P k :=
    fun h i k hk => h i k (List.mem_append_left _ hk)
  induction h with
  | nil => exact ⟨.nil, nofun⟩
  | began i k _ ih =>
    obtain ⟨g1, g2⟩ := ih (hpre hp)
    refine ⟨.began i k g1, ?_⟩
    intro j k' hj
    dsimp only at hj
    split at hj
    · cases hj; exact hp i k (by simp)
    · exact g2 j k' hj
  | ended _ hm ho ih =>
    obtain ⟨g1, g2⟩ := ih (hpre hp)
    refine ⟨.ended g1 hm (h1 _ _ _ _ (g2 _ _ hm) ho), ?_⟩
    intro j k' hj
    dsimp only at hj
    split at hj
    · cases hj
    · exact g2 j k' hj
  | refused _ hm ih =>
    obtain ⟨g1, g2⟩ := ih (hpre hp)
    refine ⟨.refused g1 hm, ?_⟩
    intro j k' hj
    dsimp only at hj
    split at hj
    · cases hj
    · exact g2 j k' hj
  | gone _ hc ih =>
    obtain ⟨g1, g2⟩ := ih (hpre hp)
    refine ⟨.gone g1 (hc.imp id ?_), ?_⟩
    · rintro ⟨i, k, e1, e2, e3⟩
      exact ⟨i, k, e1, e2, h2 _ _ _ (g2 _ _ e2) e3⟩
    · intro j k' hj
      dsimp only at hj
      split at hj
      · cases hj
      · exact g2 j k' hj

/-- C110 (partial), in terms of the content: a call of `read_from_file` in binary mode that returns gives the whole content,
a call of `write_to_file` that returns has replaced it by the data, a call of `append_to_file` that returns has added the data
to it, all of them one after the other.  Calls that read never change the content, broken off or not.  Missing: as in
`C110_serial_partial`; the system must not answer like a device, and calls that write must have a buffer. -/
theorem C110_register_partial {u : Uid} {file : Bytes} {w : Crowd S} {tr : List Event} {log : List CallEvent}
    (h : Crowd.Runs u file w tr log) (hc : Apart tr) (hp : ∀ i k, .began i k ∈ log → k.Plain S ∧ Regular k) :
    ∃ c, Serial (Means S) Breaks file log (fun i => (w.calls i).map Prod.fst) c ∧
      ((∀ i k ph, w.calls i = some (k, ph) → ph.Active → k.task.isLoad = true) → w.file = c) := by
  obtain ⟨c, h1, h2⟩ := C110_serial_partial h hc fun i k hk => (hp i k hk).1
  exact ⟨c, (serial_mono (P := Regular) (fun _ _ _ _ hk ho => alone_means hk ho) (fun _ _ _ _ hc => cut_breaks hc) h1
    fun i k hk => (hp i k hk).2).1, h2⟩


/-! ## Runs -/

/-- The moves do not wrap descriptors. -/
def Fresh : Crowd.Move → Bool
  | .sys l => l.noWrap
  | _ => true

/-- The moves one after the other. -/
def movesRun (u : Uid) : Crowd S → List Event → List CallEvent → List Crowd.Move → Option (Crowd S × List Event × List CallEvent)
  | w, tr, log, [] => some (w, tr, log)
  | w, tr, log, m :: ms =>
    match w.step u m with
    | some (w, e, x) => movesRun u w (tr ++ e) (log ++ x) ms
    | none => none

theorem movesRun_runs {u : Uid} {file : Bytes} : ∀ {ms : List Crowd.Move} {w w' : Crowd S} {tr tr' : List Event}
    {log log' : List CallEvent}, ms.all Fresh = true → Crowd.Runs u file w tr log →
    movesRun u w tr log ms = some (w', tr', log') → Crowd.Runs u file w' tr' log' := by
  intro ms
  induction ms with
  | nil => intro w w' tr tr' log log' _ h hr; cases hr; exact h
  | cons m ms ih =>
    intro w w' tr tr' log log' hf h hr
    simp only [List.all_cons, Bool.and_eq_true] at hf
    simp only [movesRun] at hr
    split at hr
    · rename_i w₁ e x hs
      refine ih hf.2 (h.step ?_ hs) hr
      intro l hl
      cases m <;> simp only [Crowd.label, List.mem_singleton, List.not_mem_nil] at hl
      · subst hl; exact wellWrapped_of_noWrap hf.1 _
      all_goals subst hl; exact wellWrapped_of_noWrap rfl _
    · cases hr

/-- The lock is obtained at once. -/
def asks (pid tid sid : Nat) : List Crowd.Move :=
  [.ask pid tid sid true, .sys (.act pid (.reg tid)), .sys (.act pid (.kern tid))]

def works (pid sid n : Nat) : List Crowd.Move := List.replicate n (.work pid sid)

/-- Giving up the lock. -/
def leaves (pid sid n : Nat) : List Crowd.Move := .close pid sid :: List.replicate n (.sys (.act pid .micro))

def loads : Job := ⟨.load true, 8, false, none, []⟩
def stores (d : Bytes) : Job := ⟨.store (.bytes d) false, 8, false, none, []⟩
def adds (d : Bytes) : Job := ⟨.add (.bytes d) true, 8, false, none, []⟩
def addsText (s : Text) : Job := ⟨.add (.text s) false, 8, false, none, []⟩

def latinSetting : Setting := ⟨unixPython, latin1, [10], true⟩
def utf16Setting : Setting := ⟨unixPython, utf16, [10], true⟩

/-- Two threads of process 1 read; after the first one has closed its stream, process 2 gets the lock and erases the file. -/
def tornRun : List Crowd.Move :=
  [.sys (.newProc 1), .sys (.newProc 2), .start 1 10 3 loads, .start 1 11 4 loads] ++ asks 1 0 10 ++ asks 1 1 11
  ++ works 1 10 4 ++ leaves 1 10 5 ++ [.start 2 20 3 (stores [66])] ++ asks 2 0 20 ++ works 2 20 1 ++ works 1 11 3 ++ leaves 1 11 1

/-- `Apart`, checked. -/
def apart (tr : List Event) : Bool :=
  (List.range (tr.length + 1)).all fun n => decide (NoSharedOverlap (heldOf (tr.take n) ++ requestedOf (tr.take n)))

theorem apart_of {tr : List Event} (h : apart tr = true) : Apart tr := by
  intro tr₁ tr₂ he
  refine prefixes (P := fun t => NoSharedOverlap (heldOf t ++ requestedOf t)) ?_ tr₁ tr₂ he
  intro n hn
  simp only [apart, List.all_eq_true, List.mem_range, decide_eq_true_eq] at h
  exact h n hn

theorem movesRun_found {u : Uid} {file : Bytes} {ms : List Crowd.Move} {P : Crowd S × List Event × List CallEvent → Bool}
    (hf : ms.all Fresh = true) (h : (movesRun u (Crowd.init (S := S) file) [] [] ms).any P = true) :
    ∃ w tr log, Crowd.Runs u file w tr log ∧ P (w, tr, log) = true := by
  cases hr : movesRun u (Crowd.init (S := S) file) [] [] ms with
  | none => rw [hr] at h; cases h
  | some x =>
    rw [hr] at h
    exact ⟨x.1, x.2.1, x.2.2, movesRun_runs hf .init hr, h⟩

/-- Three processes: the first one appends a byte while the second one waits in order to read; the third one is killed after
it has erased the file. -/
def mixedRun : List Crowd.Move :=
  [.sys (.newProc 1), .sys (.newProc 2), .sys (.newProc 3), .start 1 10 3 (adds [66]), .start 2 20 3 loads,
    .start 3 30 3 (stores [67])] ++ asks 1 0 10 ++ works 1 10 2 ++ [.ask 2 0 20 true, .sys (.act 2 (.reg 0))] ++ works 1 10 3
  ++ leaves 1 10 4 ++ [.sys (.act 2 (.kern 0))] ++ works 2 20 4 ++ leaves 2 20 4 ++ asks 3 0 30 ++ works 3 30 1
  ++ [.sys (.exit 3)]

def mixedLog : List CallEvent :=
  [.began (1, 10) (adds [66]), .began (2, 20) loads, .began (3, 30) (stores [67]), .ended (1, 10) (.ok none),
    .ended (2, 20) (.ok (some (.bytes [65, 66]))), .gone 3]

-- appending, reading, and a call that is broken off
example : ∃ (w : Crowd latinSetting) (tr : List Event), Crowd.Runs (0, 7) [65] w tr mixedLog ∧ w.file = [] ∧ Apart tr ∧
    ∀ i k, .began i k ∈ mixedLog → k.Plain latinSetting ∧ Regular k := by
  obtain ⟨w, tr, log, h1, h2⟩ := movesRun_found (S := latinSetting) (u := (0, 7)) (file := [65]) (ms := mixedRun)
    (P := fun x => decide (x.1.file = []) && (apart x.2.1 && decide (x.2.2 = mixedLog))) (by decide) (by decide +kernel)
  simp only [Bool.and_eq_true, decide_eq_true_eq] at h2
  obtain ⟨g1, g2, rfl⟩ := h2
  refine ⟨w, tr, h1, g1, apart_of g2, ?_⟩
  intro i k hk
  refine ⟨fun _ _ => rfl, ?_⟩
  simp only [mixedLog, List.mem_cons, CallEvent.began.injEq, reduceCtorEq, List.not_mem_nil, or_false] at hk
  rcases hk with ⟨_, rfl⟩ | ⟨_, rfl⟩ | ⟨_, rfl⟩ <;> exact ⟨by simp [FileAnswers, adds, stores, loads], by simp [adds, stores, loads]⟩

theorem serial_ended {one : Job → Bytes → Result → Bytes → Prop} {cut : Job → Bytes → Bytes → Prop} {c₀ c' : Bytes}
    {log : List CallEvent} {m : Nat × Nat → Option Job} {i : Nat × Nat} {r : Result}
    (h : Serial one cut c₀ (log ++ [.ended i r]) m c') :
    ∃ m' c k, Serial one cut c₀ log m' c ∧ m' i = some k ∧ one k c r c' ∧ m = fun j => if j = i then none else m' j := by
  generalize hl : log ++ [CallEvent.ended i r] = l at h
  cases h with
  | nil => simp at hl
  | began _ _ _ => obtain ⟨_, h⟩ := List.append_inj' hl rfl; cases h
  | refused _ _ => obtain ⟨_, h⟩ := List.append_inj' hl rfl; cases h
  | gone _ _ => obtain ⟨_, h⟩ := List.append_inj' hl rfl; cases h
  | ended h1 h2 h3 =>
    obtain ⟨rfl, h⟩ := List.append_inj' hl rfl
    cases h
    exact ⟨_, _, _, h1, h2, h3, rfl⟩

theorem serial_began {one : Job → Bytes → Result → Bytes → Prop} {cut : Job → Bytes → Bytes → Prop} {c₀ c : Bytes}
    {log : List CallEvent} {m : Nat × Nat → Option Job} {i : Nat × Nat} {k : Job}
    (h : Serial one cut c₀ (log ++ [.began i k]) m c) :
    ∃ m', Serial one cut c₀ log m' c ∧ m = fun j => if j = i then some k else m' j := by
  generalize hl : log ++ [CallEvent.began i k] = l at h
  cases h with
  | nil => simp at hl
  | ended _ _ _ => obtain ⟨_, h⟩ := List.append_inj' hl rfl; cases h
  | refused _ _ => obtain ⟨_, h⟩ := List.append_inj' hl rfl; cases h
  | gone _ _ => obtain ⟨_, h⟩ := List.append_inj' hl rfl; cases h
  | began _ _ h1 =>
    obtain ⟨rfl, h⟩ := List.append_inj' hl rfl
    cases h
    exact ⟨_, h1, rfl⟩

theorem serial_nil {one : Job → Bytes → Result → Bytes → Prop} {cut : Job → Bytes → Bytes → Prop} {c₀ c : Bytes}
    {m : Nat × Nat → Option Job} (h : Serial one cut c₀ [] m c) : c = c₀ ∧ m = fun _ => none := by
  generalize hl : ([] : List CallEvent) = l at h
  cases h with
  | nil => exact ⟨rfl, rfl⟩
  | ended _ _ _ => simp at hl
  | refused _ _ => simp at hl
  | gone _ _ => simp at hl
  | began _ _ _ => simp at hl

def tornLog : List CallEvent :=
  [.began (1, 10) loads, .began (1, 11) loads, .ended (1, 10) (.ok (some (.bytes [65]))), .began (2, 20) (stores [66]),
    .ended (1, 11) (.ok (some (.bytes [])))]

theorem torn_runs : ∃ (w : Crowd latinSetting) (tr : List Event), Crowd.Runs (0, 7) [65] w tr tornLog := by
  obtain ⟨w, tr, log, h1, h2⟩ := movesRun_found (S := latinSetting) (u := (0, 7)) (file := [65]) (ms := tornRun)
    (P := fun x => decide (x.2.2 = tornLog)) (by decide) (by decide +kernel)
  simp only [decide_eq_true_eq] at h2
  subst h2
  exact ⟨w, tr, h1⟩

/-- C110 is false of the code: two threads of one process read the file, which contains one byte all the time until somebody
erases it, and one of them gets nothing, since the other one gave up the lock of both. -/
theorem C110_torn_refuted : ¬ ∀ (S : Setting) (u : Uid) (file : Bytes) (w : Crowd S) (tr : List Event) (log : List CallEvent),
    Crowd.Runs u file w tr log → (∀ i k, .began i k ∈ log → k.Plain S) →
    ∃ c, Serial (Alone S) (Cut S) file log (fun i => (w.calls i).map Prod.fst) c := by
  intro hall
  obtain ⟨w, tr, h⟩ := torn_runs
  obtain ⟨c, hs⟩ := hall _ _ _ _ _ _ h fun _ _ _ _ _ => rfl
  have hreg : ∀ i k, .began i k ∈ tornLog → Regular k := by
    intro i k hk
    simp only [tornLog, List.mem_cons, CallEvent.began.injEq, reduceCtorEq, List.not_mem_nil, or_false, false_or] at hk
    rcases hk with ⟨_, rfl⟩ | ⟨_, rfl⟩ | ⟨_, rfl⟩ <;> exact ⟨by simp [FileAnswers, stores, loads], by simp [stores, loads]⟩
  have hs := (serial_mono (P := Regular) (one' := Means latinSetting) (cut' := Breaks) (fun _ _ _ _ hk ho => alone_means hk ho)
    (fun _ _ _ _ hc => cut_breaks hc) hs hreg).1
  obtain ⟨m4, c4, k4, h4, g4, o4, _⟩ := serial_ended (log := tornLog.take 4) hs
  obtain ⟨m3, h3, rfl⟩ := serial_began (log := tornLog.take 3) h4
  obtain ⟨m2, c2, k2, h2, g2, o2, rfl⟩ := serial_ended (log := tornLog.take 2) h3
  obtain ⟨m1, h1, rfl⟩ := serial_began (log := tornLog.take 1) h2
  obtain ⟨m0, h0, rfl⟩ := serial_began (log := []) h1
  obtain ⟨rfl, rfl⟩ := serial_nil h0
  obtain rfl : loads = k2 := by simpa using g2
  obtain rfl : loads = k4 := by simpa using g4
  obtain rfl : c4 = [65] := o2.1
  have := o4.2 _ rfl rfl
  simp at this

/-- Two processes append to an empty file. -/
def marksRun : List Crowd.Move :=
  [.sys (.newProc 1), .sys (.newProc 2), .start 1 10 3 (addsText [65]), .start 2 20 3 (addsText [66])] ++ asks 1 0 10
  ++ works 1 10 4 ++ leaves 1 10 4 ++ asks 2 0 20 ++ works 2 20 4 ++ leaves 2 20 4

def marksLog : List CallEvent :=
  [.began (1, 10) (addsText [65]), .began (2, 20) (addsText [66]), .ended (1, 10) (.ok none), .ended (2, 20) (.ok none)]

theorem marks_runs : ∃ (w : Crowd utf16Setting) (tr : List Event), Crowd.Runs (0, 7) [] w tr marksLog ∧ Apart tr ∧
    w.file = [0xFF, 0xFE, 65, 0, 0xFF, 0xFE, 66, 0] := by
  obtain ⟨w, tr, log, h1, h2⟩ := movesRun_found (S := utf16Setting) (u := (0, 7)) (file := []) (ms := marksRun)
    (P := fun x => decide (x.2.2 = marksLog) && (apart x.2.1 &&
      decide (x.1.file = [0xFF, 0xFE, 65, 0, 0xFF, 0xFE, 66, 0]))) (by decide) (by decide +kernel)
  simp only [Bool.and_eq_true, decide_eq_true_eq] at h2
  obtain ⟨rfl, g1, g2⟩ := h2
  exact ⟨w, tr, h1, apart_of g1, g2⟩

/-- C110 is false of the code: when two processes append text to an empty file in UTF-16, both of them write a byte order
mark, since the second one looked at the position before it had the lock. -/
theorem C110_marks_refuted : ¬ ∀ (S : Setting) (u : Uid) (file : Bytes) (w : Crowd S) (tr : List Event) (log : List CallEvent),
    Crowd.Runs u file w tr log → Apart tr →
    ∃ c, Serial (Alone S) (Cut S) file log (fun i => (w.calls i).map Prod.fst) c ∧
      ((∀ i k ph, w.calls i = some (k, ph) → ph.Active → k.task.isLoad = true) → w.file = c) := by
  intro hall
  obtain ⟨w, tr, h, ha, hf⟩ := marks_runs
  obtain ⟨c, hs, hq⟩ := hall _ _ _ _ _ _ h ha
  have hreg : ∀ i k, .began i k ∈ marksLog → Regular k := by
    intro i k hk
    simp only [marksLog, List.mem_cons, CallEvent.began.injEq, reduceCtorEq, List.not_mem_nil, or_false] at hk
    rcases hk with ⟨_, rfl⟩ | ⟨_, rfl⟩ <;> exact ⟨by simp [FileAnswers, addsText], by simp [addsText]⟩
  have hs := (serial_mono (P := Regular) (one' := Means utf16Setting) (cut' := Breaks) (fun _ _ _ _ hk ho => alone_means hk ho)
    (fun _ _ _ _ hc => cut_breaks hc) hs hreg).1
  obtain ⟨m3, c3, k3, h3, g3, o3, e3⟩ := serial_ended (log := marksLog.take 3) hs
  obtain ⟨m2, c2, k2, h2, g2, o2, rfl⟩ := serial_ended (log := marksLog.take 2) h3
  obtain ⟨m1, h1, rfl⟩ := serial_began (log := marksLog.take 1) h2
  obtain ⟨m0, h0, rfl⟩ := serial_began (log := []) h1
  obtain ⟨rfl, rfl⟩ := serial_nil h0
  obtain rfl : addsText [65] = k2 := by simpa using g2
  obtain rfl : addsText [66] = k3 := by simpa using g3
  have hfile : w.file = c := hq fun i k ph hi _ => by
    have := congrFun e3 i
    rw [hi] at this
    simp only [Option.map_some] at this
    split at this
    · cases this
    · split at this
      · cases this
      · cases this
  obtain ⟨_, b2, ⟨e, enc, p1, p2⟩, p3⟩ := o2 _ rfl
  obtain ⟨_, b3, ⟨e', enc', q1, q2⟩, q3⟩ := o3 _ rfl
  have hc : c = [0xFF, 0xFE, 65, 0, 66, 0] := by
    have p1 : e = true := by
      rcases p1 with ⟨_, p1⟩ | ⟨p1, _⟩
      · exact p1
      · exact absurd rfl p1
    subst p1
    have p2 : b2 = [0xFF, 0xFE, 65, 0] := by
      have : utf16.encode true [65] = .ok ([0xFF, 0xFE, 65, 0], false) := rfl
      change utf16.encode true [65] = _ at p2
      rw [this] at p2
      cases p2; rfl
    subst p2
    rw [List.nil_append] at p3
    subst p3
    have q1 : e' = false := by
      rcases q1 with ⟨q1, _⟩ | ⟨_, q1⟩
      · cases q1
      · exact q1
    subst q1
    have : utf16.encode false [66] = .ok ([66, 0], false) := rfl
    change utf16.encode false [66] = _ at q2
    rw [this] at q2
    cases q2
    exact q3
  rw [hc, hf] at hfile
  simp at hfile

end Verif.Props
