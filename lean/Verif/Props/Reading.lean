import Verif.Lemmas.Smooth

/-!
# C97: reading in order, whatever the system answers
-/

set_option autoImplicit false

namespace Verif.Props

open Verif Verif.Spec Verif.Buf

/-- Bytes or `None`. -/
def gotOf : Option Bytes → Got
  | some x => .bytes x
  | none => .nothing

/-- A call on a stream. -/
def readStep : ReadCall → Buf → Got × Buf
  | .read n, b => match Buf.read n b with
    | (.ok r, b) => (gotOf r, b)
    | (.error e, b) => (.raised e, b)
  | .read1 n, b => match Buf.read1 n b with
    | (.ok r, b) => (gotOf r, b)
    | (.error e, b) => (.raised e, b)
  | .peek n, b => match Buf.peek n b with
    | (.ok x, b) => (.bytes x, b)
    | (.error e, b) => (.raised e, b)
  | .readline n, b => match Buf.readline n b with
    | (.ok x, b) => (.bytes x, b)
    | (.error e, b) => (.raised e, b)
  | .readlines n, b => match Buf.readlines n b with
    | (.ok x, b) => (.lines x, b)
    | (.error e, b) => (.raised e, b)

/-- Calls, one after the other: each with what it returned. -/
def readRun : List ReadCall → Buf → List (ReadCall × Got) × Buf
  | [], b => ([], b)
  | c :: cs, b => ((c, (readStep c b).1) :: (readRun cs (readStep c b).2).1, (readRun cs (readStep c b).2).2)

/-- All the bytes the calls have taken. -/
def allTaken (l : List (ReadCall × Got)) : Bytes := (l.map fun x => taken x.1 x.2).flatten

theorem step_smooth {data : Bytes} {p : Nat} {b : Buf} (h : Smooth data p b) (c : ReadCall) :
    ∃ g b' used, readStep c b = (g, b') ∧ Smooth data (p + (taken c g).length) b' ∧ After b used b' ∧
      Faithful (data.drop p) c g ∧ Fits c g ∧ (g = .nothing → used.getLast? = some .again) ∧
      (Enough (data.drop p) c g ∨ Stopped used) := by
  have whole : ∀ {x : Bytes}, x <+: data.drop p → data.length ≤ p + x.length → x = data.drop p := by
    intro x hx hl
    refine hx.eq_of_length (Nat.le_antisymm hx.length_le ?_)
    rw [List.length_drop]; omega
  cases c with
  | read n =>
    rcases read_smooth h n with ⟨h1, z, rfl, hz⟩ | ⟨hn, r, b', used, h1, h2, h3, h4⟩
    · exact ⟨.raised .valueError, b, [], by simp [readStep, h1], h, .refl b, ⟨List.nil_prefix, hz, rfl⟩, trivial, nofun,
        .inl (.inl hz)⟩
    · have key : taken (.read n) (gotOf r) = r.getD [] := by
        cases r <;> rfl
      refine ⟨gotOf r, b', used, ?_, ?_, h2.after, ⟨?_, ?_⟩, ?_, ?_, ?_⟩
      · simp only [readStep, h1]
      · rw [key]; exact h2.calm
      · rw [key]; exact h2.bytes
      · cases r <;> cases n <;> trivial
      · match n, r with
        | none, _ => trivial
        | some z, none => trivial
        | some z, some x =>
          intro h0
          have hz : ¬ z < 0 := by omega
          have : x.length ≤ z.toNat := h3 z.toNat (by simp only [asked, hz, if_false])
          omega
      · intro hg
        cases r with
        | none => exact h2.nothing rfl
        | some x => cases hg
      · have h4' : asked n = some (r.getD []).length ∨ r.getD [] = data.drop p ∨ Stopped used :=
          h4.imp_right (Or.imp_left (whole h2.bytes))
        rw [← key] at h4'
        rcases h4' with h4 | h4 | h4
        · left
          cases n with
          | none => cases h4
          | some z =>
            refine .inr (.inl ?_)
            simp only [asked] at h4
            by_cases hz : z < 0
            · rw [if_pos hz] at h4; cases h4
            · rw [if_neg hz] at h4
              refine ⟨by omega, ?_⟩
              have := Option.some.inj h4
              have e : taken (.read none) (gotOf r) = taken (.read (some z)) (gotOf r) := by cases r <;> rfl
              rw [e]
              omega
        · left
          cases n with
          | none => exact h4
          | some z =>
            refine .inr (.inr ?_)
            rw [← h4]
            cases r <;> rfl
        · exact .inr h4
  | read1 n =>
    obtain ⟨r, b', used, h1, h2, h3, h4⟩ := read1_smooth h n
    have key : taken (.read1 n) (gotOf r) = r.getD [] := by
      cases r <;> rfl
    refine ⟨gotOf r, b', used, ?_, ?_, h2.after, ⟨?_, ?_⟩, ?_, ?_, ?_⟩
    · simp only [readStep, h1]
    · rw [key]; exact h2.calm
    · rw [key]; exact h2.bytes
    · cases r <;> trivial
    · cases r with
      | none => trivial
      | some x => exact h3
    · intro hg
      cases r with
      | none => exact h2.nothing rfl
      | some x => cases hg
    · rw [← key] at h4
      rcases h4 with h4 | h4 | h4 | h4
      · exact .inl (.inl h4)
      · refine .inl (.inr (.inl ?_))
        cases r <;> exact h4
      · exact .inl (.inr (.inr (List.drop_eq_nil_iff.2 h4)))
      · exact .inr h4
  | peek n =>
    obtain ⟨x, b', used, h1, h2, h3, h4, h5⟩ := peek_smooth h n
    refine ⟨.bytes x, b', used, by simp [readStep, h1], h2, h3, ⟨List.nil_prefix, h4⟩, trivial, nofun, ?_⟩
    by_cases h0 : x = []
    · rcases h5 h0 with h5 | h5
      · exact .inl (.inr (List.drop_eq_nil_iff.2 h5))
      · exact .inr h5
    · exact .inl (.inl fun h => h0 (by cases h; rfl))
  | readline n =>
    obtain ⟨x, b', used, h1, h2, h3, h4, h5, h6⟩ := readline_smooth h n
    refine ⟨.bytes x, b', used, by simp [readStep, h1], h3, h4, ⟨h2, trivial⟩, h5, nofun, ?_⟩
    rcases h6 with h6 | h6 | h6 | h6
    · exact .inl (.inl h6)
    · exact .inl (.inr (.inl h6))
    · exact .inl (.inr (.inr (whole h2 h6)))
    · exact .inr h6
  | readlines n =>
    obtain ⟨x, b', used, h1, h2, h3, h4, h5, h6⟩ := readlines_smooth h n
    refine ⟨.lines x, b', used, by simp [readStep, h1], h3, h4, ⟨h2, trivial⟩, h5, nofun, ?_⟩
    rcases h6 with h6 | h6 | h6
    · exact .inl (.inl h6)
    · exact .inl (.inr (whole h2 h6))
    · exact .inr h6

theorem run_smooth {data : Bytes} (cs : List ReadCall) : ∀ {p : Nat} {b : Buf}, Smooth data p b →
    InOrder (data.drop p) (readRun cs b).1 ∧ Smooth data (p + (allTaken (readRun cs b).1).length) (readRun cs b).2 ∧
      (∃ used, b.raw.sched = used ++ (readRun cs b).2.raw.sched) := by
  induction cs with
  | nil => exact fun h => ⟨trivial, h, [], rfl⟩
  | cons c cs ih =>
    intro p b h
    obtain ⟨g, b', used, h1, h2, h3, h4, _⟩ := step_smooth h c
    obtain ⟨g1, g2, u, g3⟩ := ih h2
    simp only [readRun, h1, allTaken, List.map_cons, List.flatten_cons, List.length_append, ← Nat.add_assoc]
    refine ⟨⟨h4, ?_⟩, g2, used ++ u, by rw [h3.sched, g3, List.append_assoc]⟩
    rw [List.drop_drop]; exact g1

theorem created_smooth {k : BufKind} {n : Int} {raw : Raw} {b : Buf} (h : Buf.create k n raw = .ok b) (hk : k ≠ .writer)
    (hc : ∀ a ∈ raw.sched, ∀ e, a ≠ .fail e) : Smooth raw.data raw.pos b ∧ b.raw = raw := by
  unfold Buf.create at h
  repeat' split at h
  all_goals first | cases h | skip
  rename_i h1 h2 h3 h4 h5 h6 h7 h8
  have ho : raw.closed = false := by cases hcl : raw.closed <;> simp_all
  have hr : raw.readable = true := by cases hcl : raw.readable <;> simp_all
  exact ⟨⟨hk, by dsimp only; omega, rfl, Nat.le_refl _, List.nil_prefix, ⟨ho, hr, hc, rfl, rfl⟩⟩, rfl⟩

/-- C97: whatever counts the system returns, and however often it says that there is nothing for now, what the calls that
read return are the bytes of the file, in order, none left out and none twice; and the file does not change. -/
theorem C97_order {k : BufKind} {n : Int} {raw : Raw} {b : Buf} (h : Buf.create k n raw = .ok b) (hk : k ≠ .writer)
    (hc : ∀ a ∈ raw.sched, ∀ e, a ≠ .fail e) (cs : List ReadCall) :
    InOrder (raw.data.drop raw.pos) (readRun cs b).1 ∧ (readRun cs b).2.raw.data = raw.data :=
  have := run_smooth cs (created_smooth h hk hc).1
  ⟨this.1, this.2.1.raw.data⟩

theorem inOrder_prefix {l : List (ReadCall × Got)} : ∀ {rest : Bytes}, InOrder rest l → allTaken l <+: rest := by
  induction l with
  | nil => exact fun _ => List.nil_prefix
  | cons x l ih =>
    rintro rest ⟨h1, h2⟩
    simp only [allTaken, List.map_cons, List.flatten_cons]
    exact prefix_add h1.1 (ih h2)

/-- C97: all that was returned, put together, is the beginning of what there was. -/
theorem C97_together {k : BufKind} {n : Int} {raw : Raw} {b : Buf} (h : Buf.create k n raw = .ok b) (hk : k ≠ .writer)
    (hc : ∀ a ∈ raw.sched, ∀ e, a ≠ .fail e) (cs : List ReadCall) :
    allTaken (readRun cs b).1 <+: raw.data.drop raw.pos :=
  inOrder_prefix (C97_order h hk hc cs).1

/-- C97: after any calls, a call returns at most as much as was asked for, and less only if there is no more or the last
answer of the system was that there is nothing for now or any more; `None` is for the former. -/
theorem C97_amount {k : BufKind} {n : Int} {raw : Raw} {b : Buf} (h : Buf.create k n raw = .ok b) (hk : k ≠ .writer)
    (hc : ∀ a ∈ raw.sched, ∀ e, a ≠ .fail e) (cs : List ReadCall) (c : ReadCall) :
    ∃ used, (readRun cs b).2.raw.sched = used ++ (readStep c (readRun cs b).2).2.raw.sched ∧
      Fits c (readStep c (readRun cs b).2).1 ∧
      ((readStep c (readRun cs b).2).1 = .nothing → used.getLast? = some .again) ∧
      (Enough (raw.data.drop (raw.pos + (allTaken (readRun cs b).1).length)) c (readStep c (readRun cs b).2).1 ∨
        Stopped used) := by
  obtain ⟨g, b', used, h1, _, h3, _, h5, h6, h7⟩ := step_smooth (run_smooth cs (created_smooth h hk hc).1).2.1 c
  rw [h1]
  exact ⟨used, h3.sched, h5, h6, h7⟩

/-- A file with the bytes 1 to 8, and what the system is going to answer. -/
def oneToEight (sched : List OsAns) : Raw :=
  { platform := .unix, junk := fun _ => 0, closed := false, readable := true, writable := false, seekable := false,
    append := false, data := [1, 2, 3, 4, 5, 6, 7, 8], pos := 0, sched := sched, events := [], disk := [] }

/-- The claim of C97, also when system calls fail: the calls that return something return the bytes in order, none left
out. -/
def InOrderAlways : Prop :=
  ∀ (k : BufKind) (n : Int) (raw : Raw) (b : Buf) (cs : List ReadCall), Buf.create k n raw = .ok b → k ≠ .writer →
    allTaken (readRun cs b).1 <+: raw.data.drop raw.pos

/-- A stream of these bytes, with a buffer of 4 bytes. -/
def fourAtATime (sched : List OsAns) : Buf := ⟨.reader, 4, oneToEight sched, [], 0, []⟩

/-- If a system call fails, what the same `read` had got before is lost: the next call goes on behind it. -/
theorem C97_failure_refuted : ¬ InOrderAlways := by
  intro h
  have := h .reader 4 (oneToEight [.count 2, .fail 5]) (fourAtATime [.count 2, .fail 5]) [.read (some 4), .read (some 4)]
    rfl (by decide)
  have e : allTaken (readRun [.read (some 4), .read (some 4)] (fourAtATime [.count 2, .fail 5])).1 = [3, 4, 5, 6] := by
    decide +kernel
  rw [e] at this
  obtain ⟨t, ht⟩ := this
  cases ht

/-- The claim of C97 for `readinto`. -/
def IntoInOrder : Prop :=
  ∀ (k : BufKind) (n : Int) (raw : Raw) (b : Buf) (cs cs' : List ReadCall) (dst : Bytes), Buf.create k n raw = .ok b →
    k ≠ .writer → (∀ a ∈ raw.sched, ∀ e, a ≠ .fail e) →
    match Buf.readinto false dst (readRun cs b).2 with
    | (.ok r, b') => allTaken (readRun cs b).1 ++ r.2.take r.1 ++ allTaken (readRun cs' b').1 <+: raw.data.drop raw.pos
    | (.error _, b') => allTaken (readRun cs b).1 ++ allTaken (readRun cs' b').1 <+: raw.data.drop raw.pos

/-- It is false: with two bytes in the buffer and no more for now, `readinto` takes the two, and raises TypeError
(`len(None)`, C31); the next call goes on behind them. -/
theorem C97_readinto_refuted : ¬ IntoInOrder := by
  intro h
  have := h .reader 4 (oneToEight [.count 2, .again]) (fourAtATime [.count 2, .again]) [.peek 1] [.read (some 1)]
    (List.replicate 10 0) rfl (by decide) (by
      intro a ha e
      rcases List.mem_cons.1 ha with rfl | ha
      · nofun
      · rw [List.mem_singleton.1 ha]; nofun)
  generalize hr : Buf.readinto false (List.replicate 10 0) (readRun [.peek 1] (fourAtATime [.count 2, .again])).2 = r at this
  have h1 : r.1 = .error .typeError := by rw [← hr]; decide +kernel
  have h2 : allTaken (readRun [.read (some 1)] r.2).1 = [3] := by rw [← hr]; decide +kernel
  have h3 : allTaken (readRun [.peek 1] (fourAtATime [.count 2, .again])).1 = [] := by decide +kernel
  obtain ⟨x, b'⟩ := r
  subst h1
  dsimp only at this h2
  rw [h2, h3] at this
  obtain ⟨t, ht⟩ := this
  cases ht

-- the same bytes, in pieces: would-block, two bytes, would-block, then all
example : (readRun [.read (some 4), .read (some 4), .peek 1, .read (some 4), .read none]
      (fourAtATime [.again, .count 2, .again])).1.map Prod.snd =
    [.nothing, .bytes [1, 2], .bytes [3, 4, 5, 6], .bytes [3, 4, 5, 6], .bytes [7, 8]] := by decide +kernel
-- the answers used up
example : Stopped [.count 2, .again] ∧ ¬ Stopped [.count 2] := by
  refine ⟨⟨.again, rfl, .inl rfl⟩, ?_⟩
  rintro ⟨a, h, h'⟩
  cases h
  rcases h' with h' | h' | h' <;> cases h'
-- a pipe that ends early
example : (readRun [.read1 3, .readlines none, .read none] (fourAtATime [.count 1, .pipe, .pipe])).1.map Prod.snd =
    [.bytes [1], .lines [], .bytes [2, 3, 4, 5, 6, 7, 8]] := by decide +kernel
example : Buf.create .reader 4 (oneToEight [.again, .count 2, .again]) = .ok (fourAtATime [.again, .count 2, .again]) := rfl
-- what would not be in order
example : ¬ InOrder [1, 2, 3] [(.read (some 1), .bytes [2])] ∧ ¬ InOrder [1, 2, 3] [(.peek 1, .bytes [1]), (.read none, .bytes [2])] ∧
    ¬ InOrder [1, 2, 3] [(.read (some 1), .bytes [1]), (.readline 1, .bytes [1])] := by
  refine ⟨fun h => ?_, fun h => ?_, fun h => ?_⟩
  · obtain ⟨t, ht⟩ := h.1.1; cases ht
  · obtain ⟨t, ht⟩ := h.2.1.1; cases ht
  · obtain ⟨t, ht⟩ := h.2.1.1; cases ht

end Verif.Props
