import Verif.Lemmas.AppendTogether
import Verif.Props.Together
import Verif.Props.AppendStream

/-!
# C123: critical sections on several buffered streams, some of them in append mode
-/

set_option autoImplicit false

namespace Verif.Props

open Verif Verif.Spec

/-- C123.  Programs that use a stream only while it holds a lock on the file see one byte array, with a position for each stream; what
a stream in append mode writes goes to the end of the array; and when nobody holds an exclusive lock, the array is the file.
Missing: what comes after a call that the code gets wrong even on one stream (`Pool.Unsafe`, see C23 and C121), and `with` blocks that
do not flush (`C75_with_refuted`). -/
theorem C123_serial_partial {h : List Item} (hd : DisciplinedAny h) (d : Bytes) :
    ∃ pre post s, h = pre ++ post ∧ Pooled (.start d) ((beforehand d).play pre).1 s ∧
      ((∀ i, (i, false) ∉ holding pre) → ((beforehand d).play pre).2.file = s.data) ∧
      (post = [] ∨ ∃ it rest, post = it :: rest ∧ s.Unsafe it) := by
  obtain ⟨pre, post, s, e1, _, e2, e3, e4⟩ := Turns.history hd d
  exact ⟨pre, post, s, e1, e2, e3.file, e4⟩

theorem Pooled.kinds {d : Bytes} {tr : List (Item × StreamOut)} {s : Pool} (h : Pooled (.start d) tr s)
    (hk : ∀ i b out, (Item.opened i b, out) ∈ tr → b.kind ≠ .random) (i : Sid) : s.kind i ≠ .random := by
  generalize hs : Pool.start d = s₀ at h
  induction h with
  | nil => subst hs; simp [Pool.start]
  | @snoc s' s'' tr it out _ hst ih =>
    have ih' := ih (fun i b out hm => hk i b out (List.mem_append_left _ hm))
    cases it with
    | opened j b =>
      obtain ⟨_, rfl⟩ := hst
      dsimp only
      split
      · exact hk j b out (by simp)
      · exact ih'
    | did j op => obtain ⟨_, _, _, _, rfl⟩ := hst; exact ih'
    | ask j => obtain ⟨_, rfl⟩ := hst; exact ih'
    | granted j sh => obtain ⟨_, rfl⟩ := hst; exact ih'
    | unlock j => obtain ⟨_, rfl⟩ := hst; exact ih'
    | exit j => obtain ⟨_, rfl⟩ := hst; exact ih'
    | close j => obtain ⟨_, rfl⟩ := hst; exact ih'
    | gone p => obtain ⟨_, rfl⟩ := hst; exact ih'

/-- C123 without exception, when every stream is opened for reading only or for writing or appending only, and none is asked for its
position. -/
theorem C123_one_way {h : List Item} (hd : DisciplinedAny h) (d : Bytes)
    (hk : ∀ i b, Item.opened i b ∈ h → b.kind ≠ .random) (ht : ∀ i, Item.did i .tell ∉ h) :
    ∃ s, Pooled (.start d) ((beforehand d).play h).1 s ∧
      ((∀ i, (i, false) ∉ holding h) → ((beforehand d).play h).2.file = s.data) := by
  obtain ⟨pre, post, s, rfl, e1, e2, e3⟩ := C123_serial_partial hd d
  rcases e3 with rfl | ⟨it, rest, rfl, e3⟩
  · rw [List.append_nil]; exact ⟨s, e1, e2⟩
  · have hkk := Pooled.kinds e1 (fun i b out hm => hk i b (List.mem_append_left _ (by
      rw [← play_items (beforehand d) pre]; exact List.mem_map_of_mem hm)))
    cases it with
    | did i op =>
      rcases e3 with ⟨_, hu | ⟨_, rfl | ⟨hr, _⟩⟩⟩ | ⟨_, hu⟩
      · exact absurd (Unsafe.random hu) (hkk i)
      · exact absurd (by simp) (ht i)
      · exact absurd hr (hkk i)
      · exact absurd (Unsafe.random hu) (hkk i)
    | _ => exact e3.elim

/-! ## Logs -/

/-- A program that only adds to the file: streams in append mode, that are only written, flushed and asked for the size of the file. -/
def Posts : Item → Prop
  | .opened _ b => b.raw.append = true
  | .did _ (.write _) | .did _ .flush | .did _ .size => True
  | .did _ _ => False
  | _ => True

/-- What an item adds to the file. -/
def addsTo : Item → Bytes
  | .did _ (.write d) => d
  | _ => []

/-- What a history adds to the file, in the order of the calls. -/
def posted (h : List Item) : Bytes := h.flatMap addsTo

theorem posted_snoc (h : List Item) (it : Item) : posted (h ++ [it]) = posted h ++ addsTo it := by simp [posted]

theorem DisciplinedAny.last {h : List Item} {it : Item} (hd : DisciplinedAny (h ++ [it])) : DisciplinedAny h ∧ ProperAny h it := by
  generalize hg : h ++ [it] = g at hd
  cases hd with
  | nil => simp at hg
  | @snoc h' it' h1 h2 h3 =>
    obtain ⟨rfl, e⟩ := List.append_inj' hg rfl
    cases e
    exact ⟨h1, h2⟩

/-- Only streams that are open hold locks. -/
theorem DisciplinedAny.owner {h : List Item} (hd : DisciplinedAny h) : ∀ a ∈ holding h, a.1 ∈ openIn h := by
  induction hd with
  | nil => simp [holding]
  | @snoc h it _ hp _ ih =>
    intro a ha
    rw [holding_snoc] at ha
    rw [openIn_snoc]
    cases it with
    | opened i b => exact List.mem_append_left _ (ih a ha)
    | ask i => exact ih a ha
    | granted i sh =>
      rcases List.mem_append.1 ha with ha | ha
      · exact ih a ha
      · rw [List.mem_singleton] at ha; subst ha; exact hp.1
    | did i op => exact ih a ha
    | unlock i => exact ih a (List.mem_filter.1 ha).1
    | exit i => exact ih a (List.mem_filter.1 ha).1
    | close i => exact List.mem_filter.2 ⟨ih a (List.mem_filter.1 ha).1, (List.mem_filter.1 ha).2⟩
    | gone p => exact List.mem_filter.2 ⟨ih a (List.mem_filter.1 ha).1, (List.mem_filter.1 ha).2⟩

/-- The stream of a call is open. -/
theorem ProperAny.open {h : List Item} (hd : DisciplinedAny h) {i : Sid} {op : StreamOp} (hp : ProperAny h (.did i op)) : i ∈ openIn h := by
  rcases hp with ⟨_, sh, hp⟩ | ⟨_, hp⟩
  · exact DisciplinedAny.owner hd _ hp
  · exact DisciplinedAny.owner hd _ hp

/-- The array is the old content followed by what was written. -/
theorem Pooled.posts {d : Bytes} {tr : List (Item × StreamOut)} {s : Pool} (hp : Pooled (.start d) tr s)
    (hd : DisciplinedAny (tr.map Prod.fst)) (ho : ∀ it ∈ tr.map Prod.fst, Posts it) :
    s.data = d ++ posted (tr.map Prod.fst) ∧ ∀ i ∈ openIn (tr.map Prod.fst), s.append i = true := by
  generalize hs : Pool.start d = s₀ at hp
  induction hp with
  | nil => subst hs; exact ⟨by simp [Pool.start, posted], by simp [openIn]⟩
  | @snoc s' s'' tr it out _ hst ih =>
    rw [List.map_append] at hd ho ⊢
    change DisciplinedAny (tr.map Prod.fst ++ [it]) at hd
    obtain ⟨hd1, hpr⟩ := DisciplinedAny.last hd
    obtain ⟨e1, e2⟩ := ih hd1 (fun it hi => ho it (List.mem_append_left _ hi))
    have hit := ho it (by simp)
    change s''.data = d ++ posted (tr.map Prod.fst ++ [it]) ∧ ∀ i ∈ openIn (tr.map Prod.fst ++ [it]), s''.append i = true
    rw [posted_snoc, openIn_snoc]
    cases it with
    | opened j b =>
      obtain ⟨_, rfl⟩ := hst
      refine ⟨by simp [addsTo, e1], fun i hi => ?_⟩
      dsimp only
      split
      · exact hit
      · rename_i hne
        exact e2 i ((List.mem_append.1 hi).resolve_right (by simpa using hne))
    | did j op =>
      obtain ⟨log, f, h1, _, rfl⟩ := hst
      have h1 := h1 (e2 j (ProperAny.open hd1 hpr))
      refine ⟨?_, e2⟩
      cases op with
      | write x =>
        obtain ⟨_, k1, k2⟩ := h1
        by_cases hx : x = []
        · rw [k1 hx]; simp [addsTo, hx, Pool.after, Pool.view, e1]
        · obtain ⟨k3, _⟩ := k2 hx
          simp [Pool.after, k3, addsTo, Pool.view, e1]
      | flush => obtain ⟨⟨_, k⟩, _⟩ := h1; simp [Pool.after, k, addsTo, Pool.view, e1]
      | size => obtain ⟨⟨_, k⟩, _⟩ := h1; simp [Pool.after, k, addsTo, Pool.view, e1]
      | _ => exact hit.elim
    | ask j => obtain ⟨_, rfl⟩ := hst; exact ⟨by simp [Pool.after, addsTo, e1], e2⟩
    | granted j sh => obtain ⟨_, rfl⟩ := hst; exact ⟨by simp [Pool.after, addsTo, e1], e2⟩
    | unlock j => obtain ⟨_, rfl⟩ := hst; exact ⟨by simp [Pool.after, addsTo, e1], e2⟩
    | exit j => obtain ⟨_, rfl⟩ := hst; exact ⟨by simp [addsTo, e1], e2⟩
    | close j => obtain ⟨_, rfl⟩ := hst; exact ⟨by simp [addsTo, e1], fun i hi => e2 i (List.mem_filter.1 hi).1⟩
    | gone p => obtain ⟨_, rfl⟩ := hst; exact ⟨by simp [addsTo, e1], fun i hi => e2 i (List.mem_filter.1 hi).1⟩

/-- C123 without exception for logs: any number of streams in append mode, in any number of processes, each written in its critical
sections, with no need to move to the end first.  Nothing is lost or overwritten: when nobody holds an exclusive lock, the file is
its old content followed by all that was written, in the order of the calls. -/
theorem C123_log {h : List Item} (hd : DisciplinedAny h) (d : Bytes) (hp : ∀ it ∈ h, Posts it) :
    (∃ s, Pooled (.start d) ((beforehand d).play h).1 s ∧ s.data = d ++ posted h) ∧
      ((∀ i, (i, false) ∉ holding h) → ((beforehand d).play h).2.file = d ++ posted h) := by
  obtain ⟨pre, post, s, rfl, hdp, e1, e2, e3⟩ := Turns.history hd d
  rcases e3 with rfl | ⟨it, rest, rfl, e3⟩
  · rw [List.append_nil] at hp ⊢
    have h1 := Pooled.posts e1 (by rw [play_items]; exact hdp) (by rw [play_items]; exact hp)
    rw [play_items] at h1
    exact ⟨⟨s, e1, h1.1⟩, fun hn => (e2.file hn).trans h1.1⟩
  · have := hp it (by simp)
    cases it with
    | did i op =>
      cases op <;> try exact this.elim
      all_goals rcases e3 with ⟨_, hu | ⟨_, hc | ⟨_, hc⟩⟩⟩ | ⟨_, hu⟩ <;> first | exact hu.elim | cases hc
    | _ => exact e3.elim

/-! ## With the system that grants the locks -/

theorem JointAny.reach {u : Uid} {h : List Item} {ls : List Label} {w : World} {tr : List Event} (hj : JointAny u h ls w tr) :
    Reach ls w tr := by
  induction hj with
  | init => exact .init
  | system _ hw hs _ ih => exact ih.step hw hs
  | item _ _ _ ih => exact ih

theorem JointAny.disciplined {u : Uid} {h : List Item} {ls : List Label} {w : World} {tr : List Event} (hj : JointAny u h ls w tr)
    (hx : ∀ i, Item.granted i true ∉ h) : DisciplinedAny h := by
  induction hj with
  | init => exact .nil
  | system _ _ _ _ ih => exact ih hx
  | @item h ls w tr it hj hp hh ih =>
    refine .snoc (ih fun i hi => hx i (List.mem_append_left _ hi)) hp ?_
    intro a ha b hb hne
    exfalso
    have hm := holding_modes hx
    obtain ⟨x, x1, x2, x3, x4, x5⟩ := hh a ha
    obtain ⟨y, y1, y2, y3, y4, y5⟩ := hh b hb
    exact C01_exclusive (JointAny.reach hj) x1 y1 (x4.trans (hm a ha)) (y4.trans (hm b hb)) (x2.trans y2.symm)
      (by rw [x3, y3]; exact hne) ⟨0, x5, y5⟩

/-- C123, together with the processes, threads, registries and kernel that grant the locks: any interleaving of disciplined programs
with exclusive locks, in any number of processes, behaves as one byte array.  (Up to the first call that the code gets wrong on one
stream, as in `C123_serial_partial`.) -/
theorem C123_exclusive_partial {u : Uid} {h : List Item} {ls : List Label} {w : World} {tr : List Event} (hj : JointAny u h ls w tr)
    (hx : ∀ i, Item.granted i true ∉ h) (d : Bytes) :
    ∃ pre post s, h = pre ++ post ∧ Pooled (.start d) ((beforehand d).play pre).1 s ∧
      ((∀ i, (i, false) ∉ holding pre) → ((beforehand d).play pre).2.file = s.data) ∧
      (post = [] ∨ ∃ it rest, post = it :: rest ∧ s.Unsafe it) :=
  C123_serial_partial (JointAny.disciplined hj hx) d

/-- C123 for logs, together with the system that grants the locks. -/
theorem C123_log_exclusive {u : Uid} {h : List Item} {ls : List Label} {w : World} {tr : List Event} (hj : JointAny u h ls w tr)
    (hx : ∀ i, Item.granted i true ∉ h) (d : Bytes) (hp : ∀ it ∈ h, Posts it) (hn : ∀ i, (i, false) ∉ holding h) :
    ((beforehand d).play h).2.file = d ++ posted h :=
  (C123_log (JointAny.disciplined hj hx) d hp).2 hn

/-! ## Cases -/

/-- A stream opened on an empty file to append to it. -/
def exAppender : Buf := openedLog .writer 8 [] 0 []

theorem exAppender_fresh : FreshAny exAppender :=
  ⟨⟨_, _, _, (openedLog_ok .writer 8 (by decide) nofun [] 0 []).created⟩, rfl, rfl, by simp [Blocking, exAppender, openedLog, logOf], fun _ => nofun⟩

/-- Two processes open a file; both write in a critical section. -/
def twoLogs (b : Buf) (op : StreamOp) : List Item :=
  [.opened (1, 10) b, .opened (2, 20) b, .ask (1, 10), .granted (1, 10) false, .did (1, 10) (.write [65, 66]), .unlock (1, 10),
    .ask (2, 20), .granted (2, 20) false, .did (2, 20) (.write [67]), .did (2, 20) op, .unlock (2, 20)]

theorem twoLogs_ok {b : Buf} (hb : FreshAny b) {op : StreamOp} (hop : Inquires op) : DisciplinedAny (twoLogs b op) := by
  have h1 := DisciplinedAny.nil.snoc (it := .opened (1, 10) b) ⟨by simp [openIn], hb⟩ (by simp [Exclusion, holding, holdStep])
  have h2 := h1.snoc (it := .opened (2, 20) b) ⟨by simp [openIn, openStep], hb⟩ (by simp [Exclusion, holding, holdStep])
  have h3 := h2.snoc (it := .ask (1, 10)) ⟨by simp [openIn, openStep], by simp [holding, holdStep]⟩ (by simp [Exclusion, holding, holdStep])
  have h4 := h3.snoc (it := .granted (1, 10) false) ⟨by simp [openIn, openStep], by simp [lastOf, streamOf]⟩ (by simp [Exclusion, holding, holdStep])
  have h5 := h4.snoc (it := .did (1, 10) (.write [65, 66])) (.inr ⟨trivial, by simp [holding, holdStep]⟩) (by simp [Exclusion, holding, holdStep])
  have h6 := h5.snoc (it := .unlock (1, 10)) ⟨false, by simp [holding, holdStep]⟩ (by simp [Exclusion, holding, holdStep])
  have h7 := h6.snoc (it := .ask (2, 20)) ⟨by simp [openIn, openStep], by simp [holding, holdStep]⟩ (by simp [Exclusion, holding, holdStep])
  have h8 := h7.snoc (it := .granted (2, 20) false) ⟨by simp [openIn, openStep], by simp [lastOf, streamOf]⟩ (by simp [Exclusion, holding, holdStep])
  have h9 := h8.snoc (it := .did (2, 20) (.write [67])) (.inr ⟨trivial, by simp [holding, holdStep]⟩) (by simp [Exclusion, holding, holdStep])
  have h10 := h9.snoc (it := .did (2, 20) op) (.inl ⟨hop, false, by simp [holding, holdStep]⟩) (by simp [Exclusion, holding, holdStep])
  have h11 := h10.snoc (it := .unlock (2, 20)) ⟨false, by simp [holding, holdStep]⟩ (by simp [Exclusion, holding, holdStep])
  exact h11

example : DisciplinedAny (twoLogs exAppender .flush) ∧ (∀ it ∈ twoLogs exAppender .flush, Posts it) ∧
    ((beforehand []).play (twoLogs exAppender .flush)).2.file = [65, 66, 67] :=
  ⟨twoLogs_ok exAppender_fresh trivial, by simp [twoLogs, Posts, exAppender, openedLog, logOf], by decide +kernel⟩

/-- The claim of `C123_log` for streams that are not in append mode. -/
def LogsWithoutAppend : Prop :=
  ∀ {h : List Item}, DisciplinedAny h → ∀ d : Bytes, (∀ it ∈ h, Posts it ∨ ∃ i b, it = .opened i b) → (∀ i, (i, false) ∉ holding h) →
    ((beforehand d).play h).2.file = d ++ posted h

theorem exWriter_any : FreshAny exWriter := ⟨exWriter_fresh.1, rfl, rfl, exWriter_fresh.2.2.2.2, nofun⟩

/-- Append mode is needed there: a lock does not move the stream that gets it. -/
theorem C123_plain_refuted : ¬ LogsWithoutAppend := by
  intro hall
  have := hall (twoLogs_ok (op := .flush) exWriter_any trivial) [] (by simp [twoLogs, Posts]) (by simp [twoLogs, holding, holdStep])
  exact absurd this (by decide +kernel)

/-- The beginning of such a history. -/
def twoLogsStart : List Item := (twoLogs exAppender .tell).take 8

theorem Pooled.last {s s' : Pool} {tr : List (Item × StreamOut)} {e : Item × StreamOut} (h : Pooled s (tr ++ [e]) s') :
    ∃ m, Pooled s tr m ∧ m.Step e.1 e.2 s' := by
  generalize hg : tr ++ [e] = g at h
  cases h with
  | nil => simp at hg
  | @snoc m _ tr' it out h1 h2 =>
    obtain ⟨rfl, e'⟩ := List.append_inj' hg rfl
    cases e'
    exact ⟨m, h1, h2⟩

/-- In the reference, the second stream is then at position 3. -/
theorem twoLogs_tell {tr : List (Item × StreamOut)} {o1 o2 o3 : StreamOut} {s : Pool}
    (hs : Pooled (.start []) (((tr ++ [(.did (2, 20) (.write [67]), o1)]) ++ [(.did (2, 20) .tell, o2)]) ++ [(.unlock (2, 20), o3)]) s)
    (hd : DisciplinedAny twoLogsStart) (ht : tr.map Prod.fst = twoLogsStart) : o2 = .num 3 := by
  obtain ⟨s1, hs, _⟩ := Pooled.last hs
  obtain ⟨s2, hs, h2⟩ := Pooled.last hs
  obtain ⟨s3, hs, h3⟩ := Pooled.last hs
  obtain ⟨k1, k2⟩ := Pooled.posts hs (by rw [ht]; exact hd)
    (by rw [ht]; simp [twoLogsStart, twoLogs, Posts, exAppender, openedLog, logOf])
  rw [ht] at k1 k2
  have k1 : s3.data = [65, 66] := by rw [k1]; simp [posted, twoLogsStart, twoLogs, addsTo]
  have k2 := k2 (2, 20) (by simp [twoLogsStart, twoLogs, openIn, openStep])
  obtain ⟨_, f, g1, _, rfl⟩ := h3
  obtain ⟨_, _, g1⟩ := g1 k2
  obtain ⟨g1, _⟩ := g1 (by decide)
  obtain ⟨_, f', g2, _, rfl⟩ := h2
  obtain ⟨⟨g2, _⟩, _⟩ := g2 k2
  simpa [Pool.view, Pool.after, g1, k1] using g2

/-- The claim of C123 without the restriction. -/
def PoolsAlways : Prop :=
  ∀ {h : List Item}, DisciplinedAny h → ∀ d : Bytes, ∃ s, Pooled (.start d) ((beforehand d).play h).1 s

/-- C123 is false, without any movement: a stream in append mode that writes after another one did does not know where its bytes go, and
tell() returns a wrong position. -/
theorem C123_refuted : ¬ PoolsAlways := by
  intro hall
  have hd : DisciplinedAny (((twoLogsStart ++ [.did (2, 20) (.write [67])]) ++ [.did (2, 20) .tell]) ++ [.unlock (2, 20)]) :=
    twoLogs_ok (op := .tell) exAppender_fresh trivial
  obtain ⟨s, hs⟩ := hall hd []
  rw [Together.play_snoc, Together.play_snoc, Together.play_snoc] at hs
  have := twoLogs_tell hs (DisciplinedAny.last (DisciplinedAny.last (DisciplinedAny.last hd).1).1).1 (play_items _ _)
  exact absurd this (by decide +kernel)

end Verif.Props
