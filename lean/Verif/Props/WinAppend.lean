import Verif.Spec.WinAppend
import Verif.Lemmas.RawIO

/-!
# C94: writes in append mode on windows
-/

set_option autoImplicit false

namespace Verif.Props

open Verif Verif.WinAppend

/-- The claim: the file is what it was, and the pieces that were reported as written, none of them overwritten. -/
def AppendsAll (w : State) (as : List Act) : Prop := (play w as).2.file = w.file ++ (Book.of (play w as).1).whole

/-! ## Steps -/

theorem win_play_snoc (w : State) (as : List Act) (a : Act) :
    play w (as ++ [a]) = ((play w as).1 ++ [(a, (step (play w as).2 a).1)], (step (play w as).2 a).2) := by
  induction as generalizing w with
  | nil => rfl
  | cons b as ih => simp only [List.cons_append, play, ih]

theorem book_snoc (tr : List (Act × Out)) (e : Act × Out) : Book.of (tr ++ [e]) = (Book.of tr).note e := by
  simp [Book.of, List.foldl_append]

theorem second_cases (buf : Bytes) (s : Raw) :
    (∃ k s', 1 ≤ k ∧ k ≤ buf.length ∧ second buf s = (.ok (some k), s') ∧ s'.data = writeAt s.fill s.data s.pos (buf.take k) ∧
      s'.append = s.append) ∨
    (∃ s', second buf s = (.ok none, s') ∧ s'.data = s.data ∧ s'.append = s.append) ∨
    (∃ e s', second buf s = (.error e, s') ∧ s'.data = s.data ∧ s'.append = s.append) := by
  unfold second
  by_cases hs : s.seekable = true
  · have ht : Raw.innerTell s = (.ok s.pos, s) := by unfold Raw.innerTell; rw [if_pos hs]
    rw [PyM.bind_ok ht, PyM.bind_apply]
    rcases Raw.osWrite_cases false buf s with ⟨k, sched', hk, h1, _⟩ | ⟨sched', h1, _⟩ | ⟨e, sched', h1⟩
    · rw [h1]
      cases k with
      | zero => exact .inr (.inl ⟨_, rfl, by simp, rfl⟩)
      | succ k => exact .inl ⟨k + 1, _, by omega, hk, rfl, rfl, rfl⟩
    · rw [h1]; exact .inr (.inl ⟨_, rfl, rfl, rfl⟩)
    · rw [h1]; exact .inr (.inr ⟨_, _, rfl, rfl, rfl⟩)
  · have ht : Raw.innerTell s = (.error (.ioError 29), s) := by unfold Raw.innerTell; rw [if_neg hs]
    rw [PyM.bind_apply, ht]
    exact .inr (.inr ⟨_, s, rfl, rfl, rfl⟩)

theorem first_cases (s : Raw) (ha : s.append = true) :
    (∃ x s', PyM.when s.append (Raw.innerSeek 0 .fin) s = (.ok x, s') ∧ s'.data = s.data ∧ s'.append = true ∧ s'.pos = s.data.length) ∨
    (∃ e, PyM.when s.append (Raw.innerSeek 0 .fin) s = (.error e, s)) := by
  rw [ha]
  simp only [PyM.when, if_true, PyM.bind_apply, Raw.innerSeek]
  by_cases hs : s.seekable = true
  · rw [if_pos hs]
    simp only [Int.add_zero, Int.natCast_nonneg, if_true, Int.toNat_natCast, PyM.pure_apply]
    exact .inl ⟨_, _, rfl, rfl, ha, rfl⟩
  · rw [if_neg hs]; exact .inr ⟨_, rfl⟩

theorem checks_same (s : Raw) : ((do Raw.checkClosed; Raw.checkWritable : PyM Raw Unit) s).2 = s := by
  rw [PyM.bind_apply]
  unfold Raw.checkClosed Raw.checkWritable
  by_cases h : s.closed = true <;> by_cases h' : s.writable = true <;> simp [h, h']

/-- What an action does. -/
inductive Does (w : State) : Act → Out → State → Prop
  | nothing (a : Act) (h : ∀ i buf, a = .call i buf → w.stage i ≠ .idle) : Does w a .no w
  | called (i : Sid) (buf : Bytes) (w' : State) : w.stage i = .idle → (∀ j, w'.stage j = if j = i then .called buf else w.stage j) →
      w'.file = w.file → (∀ j, (w'.raws j).append = (w.raws j).append) → (∀ j, j ≠ i → w'.raws j = w.raws j) →
      w'.holder = w.holder → Does w (.call i buf) .done w'
  | failed (i : Sid) (a : Act) (e : Exn) (w' : State) : (a = .seekEnd i ∨ a = .store i ∨ (w.stage i = .idle ∧ ∃ buf, a = .call i buf)) →
      (∀ j, w'.stage j = if j = i then .idle else w.stage j) → w'.file = w.file →
      (∀ j, (w'.raws j).append = (w.raws j).append) → (∀ j, j ≠ i → w'.raws j = w.raws j) → w'.holder = w.holder → Does w a (.error e) w'
  | moved (i : Sid) (buf : Bytes) (w' : State) : w.stage i = .called buf → (∀ j, w'.stage j = if j = i then .moved buf else w.stage j) →
      w'.file = w.file → (∀ j, (w'.raws j).append = (w.raws j).append) → (∀ j, j ≠ i → w'.raws j = w.raws j) →
      (w'.raws i).pos = w.file.length → w'.holder = w.holder → Does w (.seekEnd i) .done w'
  | stored (i : Sid) (buf : Bytes) (n : Option Nat) (w' : State) : w.stage i = .moved buf →
      (∀ j, w'.stage j = if j = i then .idle else w.stage j) →
      w'.file = writeAt (w.raws i).fill w.file (w.raws i).pos (buf.take (n.getD 0)) →
      (∀ j, (w'.raws j).append = (w.raws j).append) → (∀ j, j ≠ i → w'.raws j = w.raws j) → w'.holder = w.holder →
      Does w (.store i) (.wrote n) w'
  | refused (i : Sid) : Does w (.lock i) .refused w
  | locked (i : Sid) : w.holder = none → Does w (.lock i) .done { w with holder := some i }
  | unlocked (i : Sid) : w.stage i = .idle → w.holder = some i → Does w (.unlock i) .done { w with holder := none }

theorem keep_append {w : State} {i : Sid} {r : Raw} {p : Stage} (h : r.append = (w.raws i).append) (j : Sid) :
    ((w.keep i r p).raws j).append = (w.raws j).append := by
  unfold State.keep
  dsimp only
  split
  · rename_i e; rw [e, h]
  · rfl

theorem keep_raws {w : State} {i : Sid} {r : Raw} {p : Stage} (j : Sid) (hj : j ≠ i) : (w.keep i r p).raws j = w.raws j := if_neg hj

theorem keep_self {w : State} {i : Sid} {r : Raw} {p : Stage} : (w.keep i r p).raws i = r := if_pos rfl

theorem step_does (w : State) (hw : ∀ i, (w.raws i).append = true) (a : Act) : Does w a (step w a).1 (step w a).2 := by
  cases a with
  | call i buf =>
    simp only [step]
    cases hs : w.stage i with
    | idle =>
      dsimp only
      have hc := checks_same (w.raw i)
      generalize (do Raw.checkClosed; Raw.checkWritable : PyM Raw Unit) (w.raw i) = r at hc
      obtain ⟨r, s'⟩ := r
      subst hc
      cases r with
      | ok _ => exact .called i buf _ hs (fun _ => rfl) rfl (keep_append rfl) keep_raws rfl
      | error e => exact .failed i _ e _ (.inr (.inr ⟨hs, buf, rfl⟩)) (fun _ => rfl) rfl (keep_append rfl) keep_raws rfl
    | called _ => exact .nothing _ (by rintro _ _ ⟨⟩; rw [hs]; nofun)
    | moved _ => exact .nothing _ (by rintro _ _ ⟨⟩; rw [hs]; nofun)
  | seekEnd i =>
    simp only [step]
    cases hs : w.stage i with
    | called buf =>
      dsimp only
      rcases first_cases (w.raw i) (hw i) with ⟨x, s', h1, h2, h3, h4⟩ | ⟨e, h1⟩
      · rw [h1]
        exact .moved i buf _ hs (fun _ => rfl) h2 (keep_append (by rw [h3, hw i])) keep_raws (by rw [keep_self]; exact h4) rfl
      · rw [h1]
        exact .failed i _ e _ (.inl rfl) (fun _ => rfl) rfl (keep_append rfl) keep_raws rfl
    | idle => exact .nothing _ nofun
    | moved _ => exact .nothing _ nofun
  | store i =>
    simp only [step]
    cases hs : w.stage i with
    | moved buf =>
      dsimp only
      rcases second_cases buf (w.raw i) with ⟨k, s', _, _, h1, h2, h3⟩ | ⟨s', h1, h2, h3⟩ | ⟨e, s', h1, h2, h3⟩
      · rw [h1]
        exact .stored i buf (some k) _ hs (fun _ => rfl) h2 (keep_append h3) keep_raws rfl
      · rw [h1]
        exact .stored i buf none _ hs (fun _ => rfl) (by rw [Option.getD_none, List.take_zero, writeAt_nil]; exact h2)
          (keep_append h3) keep_raws rfl
      · rw [h1]
        exact .failed i _ e _ (.inr (.inl rfl)) (fun _ => rfl) h2 (keep_append h3) keep_raws rfl
    | idle => exact .nothing _ nofun
    | called _ => exact .nothing _ nofun
  | lock i =>
    simp only [step]
    cases hs : w.stage i with
    | idle =>
      cases hh : w.holder with
      | none => exact .locked i hh
      | some j => exact .refused i
    | called _ => exact .nothing _ nofun
    | moved _ => exact .nothing _ nofun
  | unlock i =>
    simp only [step]
    by_cases h : w.stage i = .idle ∧ w.holder = some i
    · rw [if_pos h]; exact .unlocked i h.1 h.2
    · rw [if_neg h]; exact .nothing _ nofun

/-! ## Invariant -/

/-- The state agrees with what the results say. -/
structure Agrees (k : Book) (w : State) : Prop where
  append : ∀ i, (w.raws i).append = true
  holder : k.holder = w.holder
  underWay : ∀ i, k.underWay i = match w.stage i with | .idle => none | .called b => some b | .moved b => some b

theorem agrees_start {w : State} (h : Fresh w) : Agrees (Book.of []) w :=
  ⟨h.append, h.free.symm, fun i => by rw [h.idle i]; rfl⟩

theorem Agrees.step {k : Book} {w : State} (h : Agrees k w) (a : Act) : Agrees (k.note (a, (WinAppend.step w a).1)) (WinAppend.step w a).2 := by
  have hd := step_does w h.append a
  generalize WinAppend.step w a = r at *
  obtain ⟨o, w'⟩ := r
  dsimp only at *
  have hend : ∀ i, (∀ j, w'.stage j = if j = i then .idle else w.stage j) → ∀ j, (k.ended i).underWay j =
      match w'.stage j with | .idle => none | .called b => some b | .moved b => some b := by
    intro i hs j
    unfold Book.ended
    dsimp only
    rw [hs j]
    split
    · rfl
    · exact h.underWay j
  cases hd with
  | nothing a ha =>
    have : k.note (a, .no) = k := by unfold Book.note; split <;> simp_all
    rw [this]; exact h
  | called i buf w' h1 h2 h3 h4 h5 h6 =>
    refine ⟨fun j => (h4 j).trans (h.append j), by rw [h6]; exact h.holder, fun j => ?_⟩
    simp only [Book.note]
    rw [h2 j]
    split
    · rfl
    · exact h.underWay j
  | failed i a e w' h1 h2 h3 h4 h5 h6 =>
    refine ⟨fun j => (h4 j).trans (h.append j), ?_, fun j => ?_⟩
    · rcases h1 with rfl | rfl | ⟨_, _, rfl⟩ <;> (rw [h6]; exact h.holder)
    · rcases h1 with rfl | rfl | ⟨h1, _, rfl⟩
      · exact hend i h2 j
      · exact hend i h2 j
      · simp only [Book.note]
        by_cases e : j = i
        · rw [h2 j, if_pos e, h.underWay j, e, h1]
        · rw [h2 j, if_neg e]; exact h.underWay j
  | moved i buf w' h1 h2 h3 h4 h5 h5' h6 =>
    refine ⟨fun j => (h4 j).trans (h.append j), by rw [h6]; exact h.holder, fun j => ?_⟩
    simp only [Book.note]
    by_cases e : j = i
    · rw [h2 j, if_pos e, h.underWay j, e, h1]
    · rw [h2 j, if_neg e]; exact h.underWay j
  | stored i buf n w' h1 h2 h3 h4 h5 h6 => exact ⟨fun j => (h4 j).trans (h.append j), by rw [h6]; exact h.holder, fun j => hend i h2 j⟩
  | refused i => exact h
  | locked i hh => exact ⟨h.append, rfl, h.underWay⟩
  | unlocked i h1 h2 => exact ⟨h.append, rfl, h.underWay⟩

/-- At most one write is under way, and nothing is lost yet. -/
structure Whole (d : Bytes) (k : Book) (w : State) : Prop where
  agrees : Agrees k w
  one : ∀ i j, w.stage i ≠ .idle → w.stage j ≠ .idle → i = j
  ready : ∀ i buf, w.stage i = .moved buf → (w.raws i).pos = w.file.length
  file : w.file = d ++ k.whole

theorem Whole.step {d : Bytes} {k : Book} {w : State} (h : Whole d k w) (a : Act)
    (ha : ∀ i buf, (a, (WinAppend.step w a).1) = (.call i buf, .done) → ∀ j, k.underWay j = none) : Whole d (k.note (a, (WinAppend.step w a).1)) (WinAppend.step w a).2 := by
  have hag := h.agrees.step a
  have hd := step_does w h.agrees.append a
  generalize WinAppend.step w a = r at *
  obtain ⟨o, w'⟩ := r
  dsimp only at *
  have hle : ∀ i, (∀ j, w'.stage j = if j = i then .idle else w.stage j) → ∀ j, w'.stage j ≠ .idle → j ≠ i ∧ w'.stage j = w.stage j := by
    intro i hs j hj
    rw [hs j] at hj ⊢
    by_cases e : j = i
    · rw [if_pos e] at hj; exact absurd rfl hj
    · exact ⟨e, if_neg e⟩
  cases hd with
  | nothing a ha =>
    have : k.note (a, .no) = k := by unfold Book.note; split <;> simp_all
    rw [this]; exact h
  | called i buf w' h1 h2 h3 h4 h5 h6 =>
    have hidle : ∀ j, w.stage j = .idle := by
      intro j
      have e1 := ha i buf rfl j
      rw [h.agrees.underWay j] at e1
      revert e1
      cases w.stage j <;> intro e1 <;> first | rfl | cases e1
    have hi : ∀ j, w'.stage j ≠ .idle → j = i := by
      intro j hj
      by_cases e : j = i
      · exact e
      · rw [h2 j, if_neg e] at hj; exact absurd (hidle j) hj
    refine ⟨hag, fun j j' hj hj' => (hi j hj).trans (hi j' hj').symm, ?_, ?_⟩
    · intro j b hj
      have := hi j (by rw [hj]; nofun)
      rw [h2 j, if_pos this] at hj
      cases hj
    · rw [h3]; exact h.file
  | failed i a e w' h1 h2 h3 h4 h5 h6 =>
    refine ⟨hag, ?_, ?_, ?_⟩
    · intro j j' hj hj'
      obtain ⟨_, e1⟩ := hle i h2 j hj
      obtain ⟨_, e2⟩ := hle i h2 j' hj'
      exact h.one j j' (e1 ▸ hj) (e2 ▸ hj')
    · intro j b hj
      obtain ⟨e1, e2⟩ := hle i h2 j (by rw [hj]; nofun)
      rw [h5 j e1, h3]
      exact h.ready j b (e2 ▸ hj)
    · rw [h3, h.file]
      rcases h1 with rfl | rfl | ⟨_, _, rfl⟩ <;> rfl
  | moved i buf w' h1 h2 h3 h4 h5 h5' h6 =>
    have hi : ∀ j, w'.stage j ≠ .idle → j = i := by
      intro j hj
      by_cases e : j = i
      · exact e
      · rw [h2 j, if_neg e] at hj; exact h.one j i hj (by rw [h1]; nofun)
    refine ⟨hag, fun j j' hj hj' => (hi j hj).trans (hi j' hj').symm, ?_, ?_⟩
    · intro j b hj
      rw [hi j (by rw [hj]; nofun), h5', h3]
    · rw [h3]; exact h.file
  | stored i buf n w' h1 h2 h3 h4 h5 h6 =>
    have hidle : ∀ j, w'.stage j = .idle := by
      intro j
      rw [h2 j]
      split
      · rfl
      · rename_i e
        cases hs : w.stage j with
        | idle => rfl
        | _ => exact absurd (h.one j i (by rw [hs]; nofun) (by rw [h1]; nofun)) e
    refine ⟨hag, fun j _ hj => absurd (hidle j) hj, fun j b hj => ?_, ?_⟩
    · rw [hidle j] at hj; cases hj
    · rw [h3, h.ready i buf h1, writeAt_end, h.file]
      simp [Book.note, Book.whole, h.agrees.underWay i, h1]
  | refused i => exact ⟨hag, h.one, h.ready, h.file⟩
  | locked i hh => exact ⟨hag, h.one, h.ready, h.file⟩
  | unlocked i h1 h2 => exact ⟨hag, h.one, h.ready, h.file⟩

/-! ## C94 -/

theorem snoc_induction {α : Type} {P : List α → Prop} (h0 : P []) (h1 : ∀ l a, P l → P (l ++ [a])) (l : List α) : P l := by
  have : ∀ r : List α, P r.reverse := by
    intro r
    induction r with
    | nil => exact h0
    | cons a r ih => rw [List.reverse_cons]; exact h1 _ _ ih
  simpa using this l.reverse

theorem apart_snoc {tr : List (Act × Out)} {e : Act × Out} (h : Apart (tr ++ [e])) :
    Apart tr ∧ ∀ i buf, e = (.call i buf, .done) → ∀ j, (Book.of tr).underWay j = none := by
  generalize hx : tr ++ [e] = x at h
  cases h with
  | nil => simp at hx
  | snoc h1 h2 =>
    obtain ⟨rfl, e1⟩ := List.append_inj' hx rfl
    cases e1
    exact ⟨h1, h2⟩

theorem careful_snoc {tr : List (Act × Out)} {e : Act × Out} (h : Careful (tr ++ [e])) :
    Careful tr ∧ ∀ i buf, e = (.call i buf, .done) → (Book.of tr).holder = some i := by
  generalize hx : tr ++ [e] = x at h
  cases h with
  | nil => simp at hx
  | snoc h1 h2 =>
    obtain ⟨rfl, e1⟩ := List.append_inj' hx rfl
    cases e1
    exact ⟨h1, h2⟩

theorem agrees_play {w : State} (hw : Fresh w) (as : List Act) : Agrees (Book.of (play w as).1) (play w as).2 := by
  induction as using snoc_induction with
  | h0 => exact agrees_start hw
  | h1 as a ih => rw [win_play_snoc, book_snoc]; exact ih.step a

/-- C94, if writes do not overlap: the pieces stand one after the other at the end of the file, whatever the system answers.
Missing: overlapping writes, for which it is false (`C94_refuted`). -/
theorem C94_apart_partial {w : State} (hw : Fresh w) (as : List Act) (h : Apart (play w as).1) : AppendsAll w as := by
  have key : Whole w.file (Book.of (play w as).1) (play w as).2 := by
    induction as using snoc_induction with
    | h0 =>
      exact ⟨agrees_start hw, fun i _ hi => absurd (hw.idle i) hi, fun i b hi => (by
        rw [show (play w []).2 = w from rfl, hw.idle i] at hi; cases hi), by simp [play, Book.of, Book.whole]⟩
    | h1 as a ih =>
      rw [win_play_snoc] at h ⊢
      obtain ⟨h1, h2⟩ := apart_snoc h
      rw [book_snoc]
      exact (ih h1).step a h2
  exact key.file

/-- A write is under way only while its stream holds the lock. -/
theorem careful_holder {w : State} (hw : Fresh w) (as : List Act) (h : Careful (play w as).1) :
    ∀ i, (play w as).2.stage i ≠ .idle → (play w as).2.holder = some i := by
  induction as using snoc_induction with
  | h0 => exact fun i hi => absurd (hw.idle i) hi
  | h1 as a ih =>
    rw [win_play_snoc] at h ⊢
    obtain ⟨h1, h2⟩ := careful_snoc h
    have ih := ih h1
    have hag := agrees_play hw as
    have hd := step_does _ hag.append a
    have hold := hag.holder
    generalize (Book.of (play w as).1) = k at *
    generalize (play w as).2 = u at *
    dsimp only at *
    generalize WinAppend.step u a = r at *
    obtain ⟨o, u'⟩ := r
    dsimp only at *
    intro j hj
    cases hd with
    | nothing => exact ih j hj
    | called i buf w' g1 g2 g3 g4 g5 g6 =>
      rw [g6]
      by_cases e : j = i
      · rw [e, ← hold]; exact h2 i buf rfl
      · rw [g2 j, if_neg e] at hj; exact ih j hj
    | failed i a e w' g1 g2 g3 g4 g5 g6 =>
      rw [g6]
      by_cases e : j = i
      · rw [g2 j, if_pos e] at hj; exact absurd rfl hj
      · rw [g2 j, if_neg e] at hj; exact ih j hj
    | moved i buf w' g1 g2 g3 g4 g5 g5' g6 =>
      rw [g6]
      by_cases e : j = i
      · rw [e]; exact ih i (by rw [g1]; nofun)
      · rw [g2 j, if_neg e] at hj; exact ih j hj
    | stored i buf n w' g1 g2 g3 g4 g5 g6 =>
      rw [g6]
      by_cases e : j = i
      · rw [g2 j, if_pos e] at hj; exact absurd rfl hj
      · rw [g2 j, if_neg e] at hj; exact ih j hj
    | refused => exact ih j hj
    | locked i hh => rw [ih j hj] at hh; cases hh
    | unlocked i g1 g2 =>
      have := ih j hj
      rw [g2] at this
      cases this
      exact absurd g1 hj

/-- C94, for programs that hold the lock of the file when they write: nothing is lost, whatever the interleaving and the
answers of the system. -/
theorem C94_locked_partial {w : State} (hw : Fresh w) (as : List Act) (h : Careful (play w as).1) : AppendsAll w as := by
  refine C94_apart_partial hw as ?_
  induction as using snoc_induction with
  | h0 => exact .nil
  | h1 as a ih =>
    rw [win_play_snoc] at h ⊢
    obtain ⟨h1, h2⟩ := careful_snoc h
    refine .snoc (ih h1) ?_
    intro i buf he j
    have hag := agrees_play hw as
    have hh := careful_holder hw as h1
    have hi : (play w as).2.stage i = .idle := by
      have hd := step_does _ hag.append a
      obtain ⟨rfl, ho⟩ := Prod.mk.inj he
      rw [ho] at hd
      generalize (step (play w as).2 (.call i buf)).2 = w' at hd
      cases hd with
      | called _ _ _ g1 => exact g1
    rw [hag.underWay j]
    cases hs : (play w as).2.stage j with
    | idle => rfl
    | _ =>
      have e1 := hh j (by rw [hs]; nofun)
      have e2 := h2 i buf he
      rw [hag.holder, e1] at e2
      cases e2
      rw [hi] at hs
      cases hs

/-- The same, said of the result: everything that was in the file is still there. -/
theorem C94_grows {w : State} (hw : Fresh w) (as : List Act) (h : Careful (play w as).1) : w.file <+: (play w as).2.file :=
  ⟨_, (C94_locked_partial hw as h).symm⟩

/-! ## Any programs -/

theorem writeAt_length_le (fill : Nat → Byte) (d : Bytes) (off : Nat) (buf : Bytes) : d.length ≤ (writeAt fill d off buf).length := by
  unfold writeAt extendTo
  split
  · exact Nat.le_refl _
  · simp only [List.length_append, List.length_take, List.length_drop, List.length_map, List.length_range]
    omega

theorem writeAt_take (fill : Nat → Byte) (d : Bytes) (off : Nat) (buf : Bytes) (n : Nat) (h1 : n ≤ off) (h2 : n ≤ d.length) :
    (writeAt fill d off buf).take n = d.take n := by
  unfold writeAt
  split
  · rfl
  · have hl : off ≤ (extendTo fill d off).length := by rw [length_extendTo]; omega
    rw [List.append_assoc, List.take_append_of_le_length (by rw [List.length_take]; omega), List.take_take, Nat.min_eq_left h1]
    unfold extendTo
    rw [List.take_append_of_le_length h2]

/-- C94, for any programs: a write overwrites nothing that was in the file when it was called, and the file never gets
shorter.  So only what others write during a write can be lost to it. -/
theorem C94_kept {w : State} (hw : ∀ i, (w.raws i).append = true) {i : Sid} (hs : ∀ buf, w.stage i ≠ .moved buf) (as : List Act) :
    w.file.length ≤ (play w as).2.file.length ∧
      (step (play w as).2 (.store i)).2.file.take w.file.length = (play w as).2.file.take w.file.length := by
  have key : (∀ j, ((play w as).2.raws j).append = true) ∧ w.file.length ≤ (play w as).2.file.length ∧
      ∀ buf, (play w as).2.stage i = .moved buf → w.file.length ≤ ((play w as).2.raws i).pos := by
    induction as using snoc_induction with
    | h0 => exact ⟨hw, Nat.le_refl _, fun buf hb => absurd hb (hs buf)⟩
    | h1 as a ih =>
      rw [win_play_snoc]
      obtain ⟨i1, i2, i3⟩ := ih
      have hd := step_does _ i1 a
      generalize (play w as).2 = u at *
      dsimp only at *
      generalize WinAppend.step u a = r at *
      obtain ⟨o, u'⟩ := r
      dsimp only at *
      cases hd with
      | nothing => exact ⟨i1, i2, i3⟩
      | called j buf w' g1 g2 g3 g4 g5 g6 =>
        refine ⟨fun x => (g4 x).trans (i1 x), by rw [g3]; exact i2, fun b hb => ?_⟩
        by_cases e : i = j
        · rw [g2 i, if_pos e] at hb; cases hb
        · rw [g2 i, if_neg e] at hb; rw [g5 i e]; exact i3 b hb
      | failed j a e w' g1 g2 g3 g4 g5 g6 =>
        refine ⟨fun x => (g4 x).trans (i1 x), by rw [g3]; exact i2, fun b hb => ?_⟩
        by_cases e : i = j
        · rw [g2 i, if_pos e] at hb; cases hb
        · rw [g2 i, if_neg e] at hb; rw [g5 i e]; exact i3 b hb
      | moved j buf w' g1 g2 g3 g4 g5 g5' g6 =>
        refine ⟨fun x => (g4 x).trans (i1 x), by rw [g3]; exact i2, fun b hb => ?_⟩
        by_cases e : i = j
        · rw [e, g5']; exact i2
        · rw [g2 i, if_neg e] at hb; rw [g5 i e]; exact i3 b hb
      | stored j buf n w' g1 g2 g3 g4 g5 g6 =>
        refine ⟨fun x => (g4 x).trans (i1 x), by rw [g3]; exact Nat.le_trans i2 (writeAt_length_le _ _ _ _), fun b hb => ?_⟩
        by_cases e : i = j
        · rw [g2 i, if_pos e] at hb; cases hb
        · rw [g2 i, if_neg e] at hb; rw [g5 i e]; exact i3 b hb
      | refused => exact ⟨i1, i2, i3⟩
      | locked => exact ⟨i1, i2, i3⟩
      | unlocked => exact ⟨i1, i2, i3⟩
  obtain ⟨k1, k2, k3⟩ := key
  refine ⟨k2, ?_⟩
  have hd := step_does _ k1 (.store i)
  generalize (play w as).2 = u at *
  generalize WinAppend.step u (.store i) = r at *
  obtain ⟨o, u'⟩ := r
  dsimp only at *
  cases hd with
  | nothing => rfl
  | failed j a e w' g1 g2 g3 g4 g5 g6 => rw [g3]
  | stored j buf n w' g1 g2 g3 g4 g5 g6 => rw [g3]; exact writeAt_take _ _ _ _ _ (k3 _ g1) k2

/-- An uninterrupted write is `write` of the raw stream. -/
theorem C94_alone {w : State} {i : Sid} (hi : w.stage i = .idle) (hw : (w.raws i).platform = .windows)
    (hc : (w.raws i).closed = false) (hwr : (w.raws i).writable = true) (buf : Bytes) :
    (play w [.call i buf, .seekEnd i, .store i]).2.file = (Raw.write buf (w.raw i)).2.data ∧
      (play w [.call i buf, .seekEnd i, .store i]).2.raws i = (Raw.write buf (w.raw i)).2 ∧
      (∀ n, (Raw.write buf (w.raw i)).1 = .ok n → (play w [.call i buf, .seekEnd i, .store i]).1 =
        [(.call i buf, .done), (.seekEnd i, .done), (.store i, .wrote n)]) := by
  have hk : ∀ (w : State) (r : Raw) (p : Stage), (w.keep i r p).raw i = r := by
    intro w r p; unfold State.raw State.keep; simp
  have hst : ∀ (w : State) (r : Raw) (p : Stage), (w.keep i r p).stage i = p := by
    intro w r p; unfold State.keep; simp
  have hcl : Raw.checkClosed (w.raw i) = (.ok (), w.raw i) := Raw.checkClosed_ok hc
  have hcw : Raw.checkWritable (w.raw i) = (.ok (), w.raw i) := Raw.checkWritable_ok hc hwr
  have e1 : step w (.call i buf) = (.done, w.keep i (w.raw i) (.called buf)) := by
    simp only [step, hi]
    rw [PyM.bind_ok hcl, hcw]
  have hin : Raw.innerWrite buf (w.raw i) = (do PyM.when (w.raw i).append (Raw.innerSeek 0 .fin); second buf : PyM Raw (Option Nat)) (w.raw i) := by
    unfold Raw.innerWrite
    rw [show (w.raw i).platform = .windows from hw]
    rfl
  unfold Raw.write
  rw [PyM.bind_ok hcl, PyM.bind_ok hcw, PyM.bind_apply, hin, PyM.bind_apply]
  simp only [play, e1]
  generalize hw1 : w.keep i (w.raw i) (.called buf) = w1
  have s1 : w1.stage i = .called buf := by rw [← hw1]; exact hst _ _ _
  have r1 : w1.raw i = w.raw i := by rw [← hw1]; exact hk _ _ _
  cases h1 : PyM.when (w.raw i).append (Raw.innerSeek 0 .fin) (w.raw i) with
  | mk res t =>
    cases res with
    | error e =>
      have e2 : step w1 (.seekEnd i) = (.error e, w1.keep i t .idle) := by simp only [step, s1, r1, h1]
      have e3 : step (w1.keep i t .idle) (.store i) = (.no, w1.keep i t .idle) := by simp only [step, hst]
      simp only [e2, e3]
      exact ⟨rfl, keep_self, nofun⟩
    | ok x =>
      have e2 : step w1 (.seekEnd i) = (.done, w1.keep i t (.moved buf)) := by simp only [step, s1, r1, h1]
      simp only [e2]
      rcases second_cases buf t with ⟨k, t', k1, k2, g1, _⟩ | ⟨t', g1, _⟩ | ⟨e, t', g1, _⟩
      · have e3 : step (w1.keep i t (.moved buf)) (.store i) = (.wrote (some k), (w1.keep i t (.moved buf)).keep i t' .idle) := by
          simp only [step, hst, hk, g1]
        have hlt : ¬ buf.length < k := by omega
        have h0 : ¬ k = 0 := by omega
        simp only [e3, g1, Option.some.injEq, h0, and_false, if_false, hlt, PyM.pure_apply]
        exact ⟨rfl, keep_self, fun n hn => by rw [Except.ok.inj hn]⟩
      · have e3 : step (w1.keep i t (.moved buf)) (.store i) = (.wrote none, (w1.keep i t (.moved buf)).keep i t' .idle) := by
          simp only [step, hst, hk, g1]
        simp only [e3, g1, reduceCtorEq, and_false, if_false, PyM.pure_apply]
        exact ⟨rfl, keep_self, fun n hn => by rw [Except.ok.inj hn]⟩
      · have e3 : step (w1.keep i t (.moved buf)) (.store i) = (.error e, (w1.keep i t (.moved buf)).keep i t' .idle) := by
          simp only [step, hst, hk, g1]
        simp only [e3, g1]
        exact ⟨rfl, keep_self, nofun⟩

/-! ## Cases -/

/-- Streams in append mode; the system answers the writes of stream `(1, 0)` as given. -/
def winShared (data : Bytes) (sched : List OsAns) : State :=
  ⟨data, fun i => ⟨.windows, fun _ => 7, false, true, true, true, true, data, 0, if i = (1, 0) then sched else [], [], []⟩,
    fun _ => .idle, none⟩

theorem winShared_fresh (data : Bytes) (sched : List OsAns) : Fresh (winShared data sched) := ⟨fun _ => rfl, rfl, fun _ => rfl⟩

/-- Two programs that take the lock; the second asks too early once, and the first is answered with a short count. -/
def takingTurns : List Act :=
  [.lock (1, 0), .call (1, 0) [1, 2, 3], .lock (2, 0), .seekEnd (1, 0), .store (1, 0), .unlock (1, 0), .lock (2, 0),
    .call (2, 0) [4], .seekEnd (2, 0), .store (2, 0), .unlock (2, 0)]

example : (play (winShared [9] [.count 2]) takingTurns).1 = [(.lock (1, 0), .done), (.call (1, 0) [1, 2, 3], .done),
    (.lock (2, 0), .refused), (.seekEnd (1, 0), .done), (.store (1, 0), .wrote (some 2)), (.unlock (1, 0), .done),
    (.lock (2, 0), .done), (.call (2, 0) [4], .done), (.seekEnd (2, 0), .done), (.store (2, 0), .wrote (some 1)),
    (.unlock (2, 0), .done)] ∧ (play (winShared [9] [.count 2]) takingTurns).2.file = [9, 1, 2, 4] := by decide +kernel

/-- A decision procedure for `Careful`, for examples. -/
def carefulFrom (k : Book) : List (Act × Out) → Bool
  | [] => true
  | e :: tr => (match e with | (.call i _, .done) => decide (k.holder = some i) | _ => true) && carefulFrom (k.note e) tr

theorem careful_of_check (tr : List (Act × Out)) (h : carefulFrom (Book.of []) tr = true) : Careful tr := by
  have key : ∀ (post pre : List (Act × Out)), Careful pre → carefulFrom (Book.of pre) post = true → Careful (pre ++ post) := by
    intro post
    induction post with
    | nil => intro pre hp _; rw [List.append_nil]; exact hp
    | cons e post ih =>
      intro pre hp hc
      simp only [carefulFrom, Bool.and_eq_true] at hc
      rw [show pre ++ e :: post = (pre ++ [e]) ++ post by simp]
      refine ih _ (.snoc hp ?_) (by rw [book_snoc]; exact hc.2)
      rintro i buf rfl
      simpa using hc.1
  exact key tr [] .nil h

example : Careful (play (winShared [9] [.count 2]) takingTurns).1 := careful_of_check _ (by decide +kernel)

/-- Both move to the end before either writes. -/
def overlapping : List Act :=
  [.call (1, 0) [1, 2, 3], .call (2, 0) [4], .seekEnd (1, 0), .seekEnd (2, 0), .store (1, 0), .store (2, 0)]

/-- C94 is false if writes overlap: both report success, and a byte of the first is overwritten ("no atomicity around here",
`rsfileio_windows.py:393`). -/
theorem C94_refuted : ¬ ∀ (w : State) (as : List Act), Fresh w → AppendsAll w as := by
  intro hall
  have := hall _ overlapping (winShared_fresh [9] [])
  revert this
  unfold AppendsAll
  decide +kernel

example : (play (winShared [9] []) overlapping).2.file = [9, 4, 2, 3] := by decide +kernel

end Verif.Props
