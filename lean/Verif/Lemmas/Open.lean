import Verif.Model.Open

/-!
# The possible courses of `rsopen`
-/

namespace Verif

namespace Host

/-- The next call to the outside fails. -/
def fails (w : Host) : Option Exn := w.sched.head?.join

/-- One call to the outside later. -/
def tick (w : Host) : Host := { w with sched := w.sched.tail }

/-- `k` calls to the outside later. -/
def ticks (k : Nat) (w : Host) : Host := { w with sched := w.sched.drop k }

theorem outside_eq (w : Host) :
    outside w = (match w.fails with
      | some e => .error e
      | none => .ok (), w.tick) := by
  unfold outside fails tick
  rcases w with ⟨_, _, _, _, _, sched, _⟩
  rcases sched with _ | ⟨e | e, rest⟩ <;> rfl

theorem outside_none {w : Host} (h : w.fails = none) : outside w = (.ok (), w.tick) := by
  rw [outside_eq, h]

theorem outside_some {w : Host} {e : Exn} (h : w.fails = some e) : outside w = (.error e, w.tick) := by
  rw [outside_eq, h]

theorem fails_mem {w : Host} {e : Exn} (h : w.fails = some e) : some e ∈ w.sched := by
  unfold fails at h
  rcases hs : w.sched with _ | ⟨x, rest⟩
  · rw [hs] at h; simp at h
  · rw [hs] at h; simp at h; simp [h]

theorem tick_eq (w : Host) : w.tick = w.ticks 1 := by
  simp [tick, ticks]

theorem ticks_ticks (j k : Nat) (w : Host) : (w.ticks j).ticks k = w.ticks (j + k) := by
  simp [ticks, List.drop_drop]

theorem ticks_zero (w : Host) : w.ticks 0 = w := rfl

theorem freeFd_free (w : Host) : w.fds.lookup w.freeFd = none := by
  unfold freeFd
  cases hf : (List.range (w.fds.length + 1)).find? fun n => (w.fds.lookup n).isNone with
  | some n =>
    have := List.find?_some hf
    simpa using this
  | none =>
    exfalso
    rw [List.find?_eq_none] at hf
    have hsub : List.range (w.fds.length + 1) ⊆ w.fds.map Prod.fst := by
      intro n hn
      have h := hf n hn
      rw [List.mem_map]
      cases hl : w.fds.lookup n with
      | none => rw [hl] at h; simp at h
      | some d =>
        obtain ⟨l1, l2, h, _⟩ := List.lookup_eq_some_iff.1 hl
        exact ⟨(n, d), by rw [h]; simp, rfl⟩
    have := List.Nodup.length_le_of_subset List.nodup_range hsub
    simp at this
    omega

theorem not_mem_of_lookup_none {l : List (Nat × Desc)} {n : Nat} (h : l.lookup n = none) : ∀ e ∈ l, e.1 ≠ n := by
  rw [List.lookup_eq_none_iff] at h
  intro e he hn
  have := h e he
  simp [hn] at this

/-- A descriptor just made. -/
def entry (kw : RawKw) (ino fd : Nat) (inheritable : Bool) : Nat × Desc :=
  (fd, ⟨ino, kw.read, kw.write || kw.append, kw.append, kw.synchronized, inheritable⟩)

/-- The file that `open(2)` enters, and the state with it. -/
inductive Enters (p : Bytes) (fl : Flags) (w : Host) : Nat → Host → Prop
  | old {ino : Nat} (hl : w.names.lookup p = some ino) (hx : ¬ (fl.creat = true ∧ fl.excl = true))
      (hd : ¬ (w.nodes[ino]?.map Node.kind = some .directory ∧ (fl.write = true ∨ fl.creat = true))) : Enters p fl w ino w
  | new (hl : w.names.lookup p = none) (hc : fl.creat = true) : Enters p fl w w.nodes.length (w.newFile p)

theorem sysOpen_ok {p : Bytes} {fl : Flags} {w w' : Host} {fd : Nat} (h : sysOpen p fl w = (.ok fd, w')) :
    w.fails = none ∧ fd = w.freeFd ∧ fd < 2 ^ 31 ∧ ∃ ino base, Enters p fl w ino base ∧
      w' = { base with
        fds := (w.freeFd, ⟨ino, fl.read, fl.write, fl.append, fl.sync, true⟩) :: w.fds
        sched := w.sched.drop 1
        log := base.log ++ [.opened w.freeFd ino] } := by
  unfold sysOpen at h
  rw [PyM.bind_apply, outside_eq] at h
  cases hf : w.fails with
  | some e => rw [hf] at h; simp at h
  | none =>
    rw [hf] at h
    dsimp only at h
    rw [PyM.bind_ok (PyM.get_apply _)] at h
    change (match w.names.lookup p with
      | some ino => _
      | none => _ : PyM Host Nat) w.tick = _ at h
    cases hl : w.names.lookup p with
    | some ino =>
      rw [hl] at h
      dsimp only at h
      rw [PyM.ite_apply, PyM.ite_apply] at h
      split at h
      · cases h
      split at h
      · cases h
      · rename_i h31 hx
        rw [PyM.ite_apply] at h
        split at h
        · cases h
        · rename_i hd
          cases h
          refine ⟨rfl, rfl, Nat.not_le.1 h31, ino, w, .old hl (by simpa using hx) (by simpa [tick] using hd), ?_⟩
          simp [newFd, tick, freeFd]
    | none =>
      rw [hl] at h
      dsimp only at h
      rw [PyM.ite_apply, PyM.ite_apply] at h
      split at h
      · cases h
      split at h
      · rename_i h31 hc
        cases h
        refine ⟨rfl, rfl, Nat.not_le.1 h31, _, _, .new hl hc, ?_⟩
        simp [newFd, tick, freeFd, newFile]
      · cases h

theorem sysOpen_error {p : Bytes} {fl : Flags} {w w' : Host} {e : Exn} (h : sysOpen p fl w = (.error e, w')) :
    w' = w.ticks 1 ∧ (w.fails = some e ∨
      (w.fails = none ∧ e = .ioError 17 ∧ fl.creat = true ∧ fl.excl = true ∧ (w.names.lookup p).isSome) ∨
      (w.fails = none ∧ e = .ioError 21 ∧ ∃ ino, w.names.lookup p = some ino ∧
        w.nodes[ino]?.map Node.kind = some .directory ∧ (fl.write = true ∨ fl.creat = true) ∧
        ¬ (fl.creat = true ∧ fl.excl = true)) ∨
      (w.fails = none ∧ e = .ioError 2 ∧ fl.creat = false ∧ w.names.lookup p = none) ∨
      (w.fails = none ∧ e = .ioError 24 ∧ 2 ^ 31 ≤ w.freeFd)) := by
  unfold sysOpen at h
  rw [PyM.bind_apply, outside_eq] at h
  cases hf : w.fails with
  | some e => rw [hf] at h; cases h; exact ⟨by simp [tick_eq], .inl rfl⟩
  | none =>
    rw [hf] at h
    dsimp only at h
    rw [PyM.bind_ok (PyM.get_apply _)] at h
    change (match w.names.lookup p with
      | some ino => _
      | none => _ : PyM Host Nat) w.tick = _ at h
    cases hl : w.names.lookup p with
    | some ino =>
      rw [hl] at h
      dsimp only at h
      rw [PyM.ite_apply, PyM.ite_apply] at h
      split at h
      · rename_i h31
        cases h
        exact ⟨by rw [tick_eq], .inr (.inr (.inr (.inr ⟨rfl, rfl, h31⟩)))⟩
      split at h
      · rename_i hx
        cases h
        simp at hx
        exact ⟨by rw [tick_eq], .inr (.inl ⟨rfl, rfl, hx.1, hx.2, by simp⟩)⟩
      · rename_i hx
        rw [PyM.ite_apply] at h
        split at h
        · rename_i hd
          cases h
          simp [tick] at hd
          exact ⟨by rw [tick_eq], .inr (.inr (.inl ⟨rfl, rfl, ino, rfl, by simpa using hd.1, hd.2, by simpa using hx⟩))⟩
        · cases h
    | none =>
      rw [hl] at h
      dsimp only at h
      rw [PyM.ite_apply, PyM.ite_apply] at h
      split at h
      · rename_i h31
        cases h
        exact ⟨by rw [tick_eq], .inr (.inr (.inr (.inr ⟨rfl, rfl, h31⟩)))⟩
      split at h
      · cases h
      · rename_i hc
        cases h
        exact ⟨by rw [tick_eq], .inr (.inr (.inr (.inl ⟨rfl, rfl, by simpa using hc, rfl⟩)))⟩

/-- `fstat` of a descriptor. -/
theorem sysFstat_eq {fd : Nat} (hfd : fd < 2 ^ 31) {w : Host} {d : Desc} {n : Node} (hl : w.fds.lookup fd = some d)
    (hn : w.nodes[d.ino]? = some n) : sysFstat fd w = match w.fails with
      | some e => (.error e, w.ticks 1)
      | none => (.ok (d.ino, n), w.ticks 1) := by
  unfold sysFstat
  rw [PyM.ite_apply, if_neg (by omega), PyM.bind_apply, outside_eq]
  cases hf : w.fails with
  | some e => simp [tick_eq]
  | none =>
    dsimp only
    rw [PyM.bind_ok (PyM.get_apply _)]
    simp only [tick, Int.toNat_natCast, hl, hn]
    rw [PyM.ite_apply, if_neg (by omega)]
    simp [ticks]

/-- `fstat` of a descriptor of a file that is not there. -/
theorem sysFstat_lost {fd : Nat} (hfd : fd < 2 ^ 31) {w : Host} {d : Desc} (hl : w.fds.lookup fd = some d)
    (hn : w.nodes[d.ino]? = none) : sysFstat fd w = match w.fails with
      | some e => (.error e, w.ticks 1)
      | none => (.error (.ioError 9), w.ticks 1) := by
  unfold sysFstat
  rw [PyM.ite_apply, if_neg (by omega), PyM.bind_apply, outside_eq]
  cases hf : w.fails with
  | some e => simp [tick_eq]
  | none =>
    dsimp only
    rw [PyM.bind_ok (PyM.get_apply _)]
    simp only [tick, Int.toNat_natCast, hl, hn]
    simp [ticks]

theorem fails_ticks (k : Nat) (w : Host) : (w.ticks k).fails = w.sched[k]?.join := by
  simp [fails, ticks, List.head?_drop]

/-- The state with a new descriptor. -/
def entered (kw : RawKw) (ino fd : Nat) (inheritable : Bool) (k : Nat) (base : Host) : Host :=
  { base with
    fds := entry kw ino fd inheritable :: base.fds
    sched := base.sched.drop k
    log := base.log ++ [.opened fd ino] }

theorem Enters.same {p : Bytes} {fl : Flags} {w base : Host} {ino : Nat} (h : Enters p fl w ino base) :
    base.fds = w.fds ∧ base.sched = w.sched ∧ base.held = w.held ∧ base.pending = w.pending := by
  cases h <;> exact ⟨rfl, rfl, rfl, rfl⟩

end Host

namespace RawObj

open Host

theorem check_ok {kw : RawKw} {u : Unit} (h : check kw = .ok u) : (kw.path = .none ∨ kw.path.isString = true) ∧
    kw.path.truthy.toNat + kw.fileno.isSome.toNat + kw.handle.isSome.toNat = 1 ∧
    (kw.read = true ∨ kw.write = true ∨ kw.append = true) ∧ ¬ (kw.mustCreate = true ∧ kw.mustNotCreate = true) ∧
    (kw.closefd = true ∨ kw.fileno.isSome = true ∨ kw.handle.isSome = true) ∧
    (kw.path = .none → ∀ z, kw.fileno = some z → 0 ≤ z) ∧
    (kw.path = .none → kw.fileno = none → ∀ z, kw.handle = some z → 0 ≤ z) ∧ kw.path.hasNul = false := by
  unfold check at h
  dsimp only at h
  by_cases h1 : (decide (kw.path ≠ .none) && !kw.path.isString) = true
  · rw [if_pos h1] at h; cases h
  rw [if_neg h1] at h
  by_cases h2 : kw.path.truthy.toNat + kw.fileno.isSome.toNat + kw.handle.isSome.toNat ≠ 1
  · rw [if_pos h2] at h; cases h
  rw [if_neg h2] at h
  by_cases h3 : (!kw.read && !(kw.write || kw.append)) = true
  · rw [if_pos h3] at h; cases h
  rw [if_neg h3] at h
  by_cases h4 : (kw.mustCreate && kw.mustNotCreate) = true
  · rw [if_pos h4] at h; cases h
  rw [if_neg h4] at h
  by_cases h5 : (!kw.closefd && !(kw.fileno.isSome || kw.handle.isSome)) = true
  · rw [if_pos h5] at h; cases h
  rw [if_neg h5] at h
  by_cases h6 : (decide (kw.path = .none) && kw.fileno.any (· < 0)) = true
  · rw [if_pos h6] at h; cases h
  rw [if_neg h6] at h
  by_cases h7 : (decide (kw.path = .none) && decide (kw.fileno = none) && kw.handle.any (· < 0)) = true
  · rw [if_pos h7] at h; cases h
  rw [if_neg h7] at h
  by_cases h8 : kw.path.hasNul = true
  · rw [if_pos h8] at h; cases h
  refine ⟨?_, Decidable.of_not_not h2, ?_, by simpa using h4, ?_, ?_, ?_, by simpa using h8⟩
  · by_cases hp : kw.path = .none
    · exact .inl hp
    · right; simpa [hp] using h1
  · cases hr : kw.read <;> cases hw : kw.write <;> cases ha : kw.append <;> simp [hr, hw, ha] at h3 ⊢
  · cases hr : kw.closefd <;> cases hw : kw.fileno.isSome <;> cases ha : kw.handle.isSome <;> simp [hr, hw, ha] at h5 ⊢
  · intro hp z hz
    simpa [hp, hz] using h6
  · intro hp hf z hz
    simpa [hp, hf, hz] using h7

/-- Why the constructor fails between `open(2)` and the end of `_inner_create_streams`. -/
def LeakReason (sched : List (Option Exn)) (base : Host) (ino : Nat) (e : Exn) : Prop :=
  (∃ j, 1 ≤ j ∧ j < 4 ∧ sched[j]? = some (some e)) ∨
  (base.nodes[ino]? = none ∧ e = .ioError 9) ∨
  ((∃ n, base.nodes[ino]? = some n ∧ n.kind = .directory) ∧ e = .ioError 21)

theorem join_some {o : Option (Option Exn)} {e : Exn} (h : o.join = some e) : o = some (some e) := by
  cases o with
  | none => cases h
  | some x => exact congrArg some h

theorem lookup_entry (kw : RawKw) (ino fd : Nat) (b : Bool) (k : Nat) (base : Host) :
    (entered kw ino fd b k base).fds.lookup fd =
      some ⟨ino, kw.read, kw.write || kw.append, kw.append, kw.synchronized, b⟩ := by
  simp [entered, entry]

theorem entered_ticks (kw : RawKw) (ino fd : Nat) (b : Bool) (j k : Nat) (base : Host) :
    (entered kw ino fd b j base).ticks k = entered kw ino fd b (j + k) base := by
  simp [entered, ticks, List.drop_drop]

theorem entered_fails (kw : RawKw) (ino fd : Nat) (b : Bool) (k : Nat) (base : Host) :
    (entered kw ino fd b k base).fails = base.sched[k]?.join := by
  simp [entered, fails, List.head?_drop]

theorem openPath_course {p : Bytes} {kw : RawKw} {w w' : Host} {r : Except Exn Int} (h : openPath p kw w = (r, w')) :
    (∃ e, r = .error e ∧ sysOpen p (flags kw) w = (.error e, w')) ∨
    (w.fails = none ∧ w.freeFd < 2 ^ 31 ∧ ∃ ino base, Enters p (flags kw) w ino base ∧
      ((∃ e k, k ≤ 4 ∧ r = .error e ∧ w' = entered kw ino w.freeFd true k base ∧ LeakReason w.sched base ino e) ∨
       (r = .ok w.freeFd ∧ w' = entered kw ino w.freeFd kw.inheritable 3 base ∧ w.sched[1]?.join = none ∧
        w.sched[2]?.join = none ∧ ∃ n, base.nodes[ino]? = some n ∧ n.kind ≠ .directory))) := by
  unfold openPath at h
  rw [PyM.bind_apply] at h
  cases ho : sysOpen p (flags kw) w with
  | mk r1 w1 =>
    rw [ho] at h
    cases r1 with
    | error e => cases h; exact .inl ⟨e, rfl, rfl⟩
    | ok fd =>
      right
      obtain ⟨hf, rfl, h31, ino, base, hin, hw1⟩ := sysOpen_ok ho
      refine ⟨hf, h31, ino, base, hin, ?_⟩
      have hsame := hin.same
      have hw1' : w1 = entered kw ino w.freeFd true 1 base := by
        rw [hw1]
        simp [entered, entry, flags, hsame.1, hsame.2.1]
      clear hw1 ho
      subst hw1'
      dsimp only at h
      rw [PyM.bind_apply] at h
      have hl := lookup_entry kw ino w.freeFd true 1 base
      cases hn : base.nodes[ino]? with
      | none =>
        rw [sysFstat_lost h31 hl hn] at h
        simp only [entered_fails, hsame.2.1, entered_ticks] at h
        cases hf1 : w.sched[1]?.join with
        | some e =>
          rw [hf1] at h
          cases h
          exact .inl ⟨e, 2, by omega, rfl, rfl, .inl ⟨1, by omega, by omega, join_some hf1⟩⟩
        | none =>
          rw [hf1] at h
          cases h
          exact .inl ⟨_, 2, by omega, rfl, rfl, .inr (.inl ⟨hn, rfl⟩)⟩
      | some n =>
        rw [sysFstat_eq h31 hl hn] at h
        simp only [entered_fails, hsame.2.1, entered_ticks] at h
        cases hf1 : w.sched[1]?.join with
        | some e =>
          rw [hf1] at h
          cases h
          exact .inl ⟨e, 2, by omega, rfl, rfl, .inl ⟨1, by omega, by omega, join_some hf1⟩⟩
        | none =>
          rw [hf1] at h
          simp only at h
          rw [PyM.ite_apply] at h
          split at h
          · rename_i hd
            cases h
            exact .inl ⟨_, 2, by omega, rfl, rfl, .inr (.inr ⟨⟨n, hn, hd⟩, rfl⟩)⟩
          · rename_i hd
            unfold sysSetInheritable at h
            rw [PyM.bind_apply, PyM.bind_apply, outside_eq, tick_eq] at h
            simp only [entered_fails, hsame.2.1, entered_ticks] at h
            cases hf2 : w.sched[2]?.join with
            | some e =>
              rw [hf2] at h
              cases h
              exact .inl ⟨e, 3, by omega, rfl, rfl, .inl ⟨2, by omega, by omega, join_some hf2⟩⟩
            | none =>
              rw [hf2] at h
              cases h
              refine .inr ⟨rfl, ?_, rfl, rfl, n, rfl, hd⟩
              have hfree := not_mem_of_lookup_none (freeFd_free w)
              unfold entered
              dsimp only
              congr 1
              rw [hsame.1, List.map_cons]
              congr 1
              · simp [entry]
              · conv => rhs; rw [← List.map_id w.fds]
                refine List.map_congr_left fun e he => ?_
                rw [if_neg (hfree e he)]
                rfl

/-- Creating the streams from a path. -/
theorem createStreams_course {p : Bytes} {kw : RawKw} (hp : kw.path = .path p) (hf : kw.fileno = none)
    (hh : kw.handle = none) {w w' : Host} {r : Except Exn (Int × Nat)} (h : createStreams kw w = (r, w')) :
    (∃ e, r = .error e ∧ sysOpen p (flags kw) w = (.error e, w')) ∨
    (w.fails = none ∧ w.freeFd < 2 ^ 31 ∧ ∃ ino base, Enters p (flags kw) w ino base ∧
      ((∃ e k b, k ≤ 4 ∧ r = .error e ∧ w' = entered kw ino w.freeFd b k base ∧ LeakReason w.sched base ino e) ∨
       (r = .ok (w.freeFd, ino) ∧ w' = entered kw ino w.freeFd kw.inheritable 4 base ∧
        (∀ j, 1 ≤ j → j < 4 → w.sched[j]?.join = none) ∧ ∃ n, base.nodes[ino]? = some n ∧ n.kind ≠ .directory))) := by
  unfold createStreams at h
  rw [hp, hf, hh] at h
  dsimp only at h
  rw [PyM.bind_apply] at h
  cases ho : openPath p kw w with
  | mk r1 w1 =>
    rw [ho] at h
    rcases openPath_course ho with ⟨e, rfl, hs⟩ | ⟨hfl, h31, ino, base, hin, hc⟩
    · cases h
      exact .inl ⟨e, rfl, hs⟩
    · right
      refine ⟨hfl, h31, ino, base, hin, ?_⟩
      rcases hc with ⟨e, k, hk, rfl, rfl, hr⟩ | ⟨rfl, rfl, hf1, hf2, n, hn, hd⟩
      · cases h
        exact .inl ⟨e, k, true, hk, rfl, rfl, hr⟩
      · dsimp only at h
        rw [PyM.bind_apply, sysFstat_eq h31 (lookup_entry kw ino w.freeFd kw.inheritable 3 base) hn] at h
        simp only [entered_fails, hin.same.2.1, entered_ticks] at h
        cases hf3 : w.sched[3]?.join with
        | some e =>
          rw [hf3] at h
          cases h
          exact .inl ⟨e, 4, _, by omega, rfl, rfl, .inl ⟨3, by omega, by omega, join_some hf3⟩⟩
        | none =>
          rw [hf3] at h
          cases h
          refine .inr ⟨rfl, rfl, fun j h1 h4 => ?_, n, hn, hd⟩
          have : j = 1 ∨ j = 2 ∨ j = 3 := by omega
          rcases this with rfl | rfl | rfl <;> assumption

/-- The raw stream that the constructor makes. -/
def built (kw : RawKw) (fd ino : Nat) (seekable : Bool) : RawObj :=
  { fd := fd, ino := ino, closefd := kw.closefd, readable := kw.read, writable := kw.write || kw.append,
    append := kw.append, mustCreate := kw.mustCreate, mustNotCreate := kw.mustNotCreate,
    synchronized := kw.synchronized, inheritable := kw.inheritable, seekable := seekable }

/-- The descriptor to wrap. -/
def given (kw : RawKw) : Option Int := kw.handle.or kw.fileno

theorem sysFstat_course {z : Int} {w w' : Host} {r : Except Exn (Nat × Node)} (h : sysFstat z w = (r, w')) :
    ∃ k, w' = w.ticks k ∧ ((r = .error .overflowError ∧ 2 ^ 31 ≤ z) ∨ r = .error (.ioError 9) ∨
      (∃ e, r = .error e ∧ some e ∈ w.sched) ∨
      (∃ d n, r = .ok (d.ino, n) ∧ 0 ≤ z ∧ z < 2 ^ 31 ∧ w.fds.lookup z.toNat = some d ∧ w.nodes[d.ino]? = some n)) := by
  unfold sysFstat at h
  rw [PyM.ite_apply] at h
  split at h
  · cases h
    rename_i hz
    exact ⟨0, rfl, .inl ⟨rfl, hz⟩⟩
  · rename_i hz
    rw [PyM.bind_apply, outside_eq] at h
    cases hf : w.fails with
    | some e =>
      rw [hf] at h
      cases h
      exact ⟨1, by rw [tick_eq], .inr (.inr (.inl ⟨e, rfl, fails_mem hf⟩))⟩
    | none =>
      rw [hf] at h
      dsimp only at h
      rw [PyM.bind_ok (PyM.get_apply _)] at h
      refine ⟨1, ?_⟩
      change (match w.fds.lookup z.toNat with
        | some d => _
        | none => _ : PyM Host (Nat × Node)) w.tick = _ at h
      cases hl : w.fds.lookup z.toNat with
      | none =>
        rw [hl] at h
        cases h
        exact ⟨by rw [tick_eq], .inr (.inl rfl)⟩
      | some d =>
        rw [hl] at h
        dsimp only at h
        change (match w.nodes[d.ino]? with
          | some n => _
          | none => _ : PyM Host (Nat × Node)) w.tick = _ at h
        cases hn : w.nodes[d.ino]? with
        | none =>
          rw [hn] at h
          cases h
          exact ⟨by rw [tick_eq], .inr (.inl rfl)⟩
        | some n =>
          rw [hn] at h
          dsimp only at h
          rw [PyM.ite_apply] at h
          split at h
          · cases h
            exact ⟨by rw [tick_eq], .inr (.inl rfl)⟩
          · cases h
            exact ⟨by rw [tick_eq], .inr (.inr (.inr ⟨d, n, rfl, by omega, by omega, rfl, hn⟩))⟩

/-- `except OverflowError: raise BadValueTypeError`. -/
def conv (e : Exn) : Exn := if e = .overflowError then .badValueType else e

theorem noOverflow_ok {α : Type} {m : PyM Host α} {w w' : Host} {a : α} (h : m w = (.ok a, w')) :
    noOverflow m w = (.ok a, w') := by
  unfold noOverflow
  rw [h]

theorem noOverflow_error {α : Type} {m : PyM Host α} {w w' : Host} {e : Exn} (h : m w = (.error e, w')) :
    noOverflow m w = (.error (conv e), w') := by
  unfold noOverflow conv
  rw [h]
  cases e <;> rfl

theorem fails_later_mem {w : Host} {k : Nat} {e : Exn} (h : w.sched[k]?.join = some e) : some e ∈ w.sched :=
  List.mem_of_getElem? (join_some h)

/-- Making a raw stream from a path. -/
theorem create_course {p : Bytes} {kw : RawKw} (hp : kw.path = .path p) (hf : kw.fileno = none)
    (hh : kw.handle = none) {w w' : Host} {r : Except Exn RawObj} (h : create kw w = (r, w')) :
    (∃ e, r = .error e ∧ check kw = .error e ∧ w' = w) ∨ (check kw = .ok () ∧
    ((∃ e, r = .error (conv e) ∧ sysOpen p (flags kw) w = (.error e, w')) ∨
    (w.fails = none ∧ w.freeFd < 2 ^ 31 ∧ ∃ ino base, Enters p (flags kw) w ino base ∧
      ((∃ e k b, r = .error (conv e) ∧ w' = entered kw ino w.freeFd b k base ∧ LeakReason w.sched base ino e) ∨
       ((∀ j, 1 ≤ j → j < 4 → w.sched[j]?.join = none) ∧ ∃ n, base.nodes[ino]? = some n ∧ n.kind ≠ .directory ∧
        ((∃ e e' k, r = .error e ∧ some e' ∈ w.sched ∧ (e = e' ∨ e = conv e') ∧
            w' = closeRaw kw.closefd ino w.freeFd (entered kw ino w.freeFd kw.inheritable k base)) ∨
         (∃ k, 5 ≤ k ∧ k ≤ 6 ∧ r = .ok (built kw w.freeFd ino (decide (n.kind = .regular))) ∧
            w' = entered kw ino w.freeFd kw.inheritable k base))))))) := by
  unfold create at h
  rw [PyM.bind_apply] at h
  cases hck : check kw with
  | error e => rw [hck] at h; cases h; exact .inl ⟨e, rfl, rfl, rfl⟩
  | ok u =>
    rw [hck] at h
    refine .inr ⟨rfl, ?_⟩
    dsimp only at h
    rw [PyM.bind_apply] at h
    cases hc : createStreams kw w with
    | mk r1 w1 =>
      rcases createStreams_course hp hf hh hc with ⟨e, rfl, hs⟩ | ⟨hfl, h31, ino, base, hin, hcs⟩
      · rw [noOverflow_error hc] at h
        cases h
        exact .inl ⟨e, rfl, hs⟩
      · refine .inr ⟨hfl, h31, ino, base, hin, ?_⟩
        rcases hcs with ⟨e, k, b, _, rfl, rfl, hr⟩ | ⟨rfl, rfl, hj, n, hn, hd⟩
        · rw [noOverflow_error hc] at h
          cases h
          exact .inl ⟨e, k, b, rfl, rfl, hr⟩
        · refine .inr ⟨hj, n, hn, hd, ?_⟩
          rw [noOverflow_ok hc] at h
          dsimp only at h
          rw [PyM.bind_apply] at h
          have hst := sysFstat_eq h31 (lookup_entry kw ino w.freeFd kw.inheritable 4 base) hn
          simp only [entered_fails, hin.same.2.1, entered_ticks] at hst
          unfold inspect at h
          cases hf4 : w.sched[4]?.join with
          | some e =>
            rw [hf4] at hst
            rw [noOverflow_error hst] at h
            cases h
            exact .inl ⟨_, e, 5, rfl, fails_later_mem hf4, .inr rfl, rfl⟩
          | none =>
            rw [hf4] at hst
            rw [noOverflow_ok hst] at h
            dsimp only at h
            rw [if_neg hd] at h
            by_cases ha : kw.append = true
            · rw [if_pos ha, outside_eq, entered_fails, hin.same.2.1, tick_eq, entered_ticks] at h
              cases hf5 : w.sched[5]?.join with
              | none =>
                rw [hf5] at h
                cases h
                exact .inr ⟨6, by omega, by omega, rfl, rfl⟩
              | some e =>
                rw [hf5] at h
                dsimp only at h
                by_cases he : e = .ioError 29
                · rw [if_pos he] at h
                  cases h
                  exact .inr ⟨6, by omega, by omega, rfl, rfl⟩
                · rw [if_neg he] at h
                  cases h
                  exact .inl ⟨_, e, 6, rfl, fails_later_mem hf5, .inl rfl, rfl⟩
            · rw [if_neg ha] at h
              cases h
              exact .inr ⟨5, by omega, by omega, rfl, rfl⟩

/-- Making a raw stream from a descriptor. -/
theorem create_fd_course {kw : RawKw} {z : Int} (hz : given kw = some z) {w w' : Host}
    {r : Except Exn RawObj} (h : create kw w = (r, w')) :
    (∃ e, r = .error e ∧ check kw = .error e ∧ w' = w) ∨ (check kw = .ok () ∧
    ((∃ e e' k, r = .error e ∧ w' = w.ticks k ∧ (e = e' ∨ e = conv e') ∧
        ((e' = .overflowError ∧ 2 ^ 31 ≤ z) ∨ e' = .ioError 9 ∨ some e' ∈ w.sched)) ∨
     (0 ≤ z ∧ ∃ d n, w.fds.lookup z.toNat = some d ∧ w.nodes[d.ino]? = some n ∧
      ((∃ e e' k c, r = .error e ∧ w' = closeRaw c d.ino z.toNat (w.ticks k) ∧ (c = true → kw.closefd = true) ∧
          (((e = e' ∨ e = conv e') ∧ some e' ∈ w.sched) ∨ (n.kind = .directory ∧ z ≠ 0 ∧ e = .ioError 21 ∧ c = false) ∨
           (n.kind = .directory ∧ z = 0 ∧ e = .assertionError ∧ c = kw.closefd))) ∨
       (n.kind ≠ .directory ∧ ∃ k, w' = w.ticks k ∧
          r = .ok (built kw z.toNat d.ino (decide (n.kind = .regular)))))))) := by
  unfold create at h
  rw [PyM.bind_apply] at h
  cases hck : check kw with
  | error e => rw [hck] at h; cases h; exact .inl ⟨e, rfl, rfl, rfl⟩
  | ok u =>
    rw [hck] at h
    refine .inr ⟨rfl, ?_⟩
    dsimp only at h
    rw [PyM.bind_apply] at h
    have hcs : createStreams kw = (do
        let st ← sysFstat z
        pure (z, st.1)) := by
      unfold createStreams
      unfold given at hz
      cases hh : kw.handle with
      | some x =>
        rw [hh] at hz
        cases hz
        rfl
      | none =>
        rw [hh] at hz
        cases hf : kw.fileno with
        | some x => rw [hf] at hz; cases hz; rfl
        | none => rw [hf] at hz; cases hz
    rw [hcs] at h
    cases hs : sysFstat z w with
    | mk r1 w1 =>
      obtain ⟨k1, rfl, hc⟩ := sysFstat_course hs
      have hno : ∀ e, r1 = .error e → (do
          let st ← sysFstat z
          pure (z, st.1) : PyM Host (Int × Nat)) w = (.error e, w.ticks k1) := by
        intro e he
        rw [PyM.bind_apply, hs, he]
      have stop : ∀ e, r1 = .error e → ((e = .overflowError ∧ 2 ^ 31 ≤ z) ∨ e = .ioError 9 ∨ some e ∈ w.sched) →
          (∃ e e' k, r = .error e ∧ w' = w.ticks k ∧ (e = e' ∨ e = conv e') ∧
            ((e' = .overflowError ∧ 2 ^ 31 ≤ z) ∨ e' = .ioError 9 ∨ some e' ∈ w.sched)) := by
        intro e he hr
        rw [noOverflow_error (hno e he)] at h
        cases h
        exact ⟨_, e, k1, rfl, rfl, .inr rfl, hr⟩
      rcases hc with ⟨rfl, h31⟩ | rfl | ⟨e, rfl, hm⟩ | ⟨d, n, rfl, h0, h31, hl, hn⟩
      · exact .inl (stop _ rfl (.inl ⟨rfl, h31⟩))
      · exact .inl (stop _ rfl (.inr (.inl rfl)))
      · exact .inl (stop _ rfl (.inr (.inr hm)))
      · refine .inr ⟨h0, d, n, hl, hn, ?_⟩
        have hok : (do
            let st ← sysFstat z
            pure (z, st.1) : PyM Host (Int × Nat)) w = (.ok (z, d.ino), w.ticks k1) := by
          rw [PyM.bind_apply, hs]
          rfl
        rw [noOverflow_ok hok] at h
        dsimp only at h
        rw [PyM.bind_apply] at h
        obtain ⟨m, rfl⟩ : ∃ m : Nat, z = m := ⟨z.toNat, by omega⟩
        have hst := sysFstat_eq (fd := m) (w := w.ticks k1) (by omega) hl hn
        rw [ticks_ticks] at hst
        unfold inspect at h
        have hmem : ∀ {e : Exn} {k : Nat}, (w.ticks k).fails = some e → some e ∈ w.sched :=
          fun h => List.mem_of_mem_drop (fails_mem h)
        cases hf : (w.ticks k1).fails with
        | some e =>
          rw [hf] at hst
          rw [noOverflow_error hst] at h
          cases h
          exact .inl ⟨_, e, _, _, rfl, rfl, id, .inl ⟨.inr rfl, hmem hf⟩⟩
        | none =>
          rw [hf] at hst
          rw [noOverflow_ok hst] at h
          dsimp only at h
          by_cases hd : n.kind = .directory
          · rw [if_pos hd] at h
            have hgv : (kw.fileno.any (· ≠ 0) || kw.handle.any (· ≠ 0)) = decide ((m : Int) ≠ 0) := by
              have hck' : kw.path.truthy.toNat + kw.fileno.isSome.toNat + kw.handle.isSome.toNat = 1 := by
                exact (check_ok hck).2.1
              unfold given at hz
              cases hh : kw.handle with
              | some x =>
                rw [hh] at hz hck'
                cases hz
                cases hff : kw.fileno with
                | some y => rw [hff] at hck'; simp at hck'
                | none => simp
              | none =>
                rw [hh] at hz
                change kw.fileno = _ at hz
                rw [hz]
                simp
            rw [hgv] at h
            by_cases hm0 : (m : Int) = 0
            · have : decide ((m : Int) ≠ 0) = false := by simp [hm0]
              rw [this] at h
              cases h
              exact .inl ⟨_, .assertionError, _, _, rfl, rfl, id, .inr (.inr ⟨hd, hm0, rfl, rfl⟩)⟩
            · have : decide ((m : Int) ≠ 0) = true := by simpa using hm0
              rw [this] at h
              cases h
              exact .inl ⟨_, .assertionError, _, _, rfl, rfl, by simp, .inr (.inl ⟨hd, hm0, rfl, rfl⟩)⟩
          · rw [if_neg hd] at h
            by_cases ha : kw.append = true
            · rw [if_pos ha, outside_eq, tick_eq, ticks_ticks] at h
              cases hf5 : (w.ticks (k1 + 1)).fails with
              | none =>
                rw [hf5] at h
                cases h
                exact .inr ⟨hd, _, rfl, rfl⟩
              | some e =>
                rw [hf5] at h
                dsimp only at h
                by_cases he : e = .ioError 29
                · rw [if_pos he] at h
                  cases h
                  exact .inr ⟨hd, _, rfl, rfl⟩
                · rw [if_neg he] at h
                  cases h
                  exact .inl ⟨_, e, _, _, rfl, rfl, id, .inl ⟨.inl rfl, hmem hf5⟩⟩
            · rw [if_neg ha] at h
              cases h
              exact .inr ⟨hd, _, rfl, rfl⟩

end RawObj

theorem RawObj.check_error {kw : RawKw} {e : Exn} (h : RawObj.check kw = .error e) : e = .badValueType := by
  unfold RawObj.check at h
  dsimp only at h
  split at h
  · cases h; rfl
  split at h
  · cases h; rfl
  split at h
  · cases h; rfl
  split at h
  · cases h; rfl
  split at h
  · cases h; rfl
  split at h
  · cases h; rfl
  split at h
  · cases h; rfl
  split at h
  · cases h; rfl
  · cases h

namespace OpenArgs

open Host

/-- What locking and truncation change. -/
def effect (locked truncated : Bool) (raw : RawObj) (w : Host) : Host :=
  { w with
    held := if locked then (raw.ino, raw.fd) :: w.held else w.held
    nodes := if truncated then w.nodes.modify raw.ino fun n => { n with data := [] } else w.nodes
    log := w.log ++ (if locked then [.locked raw.ino raw.fd] else []) ++ (if truncated then [.truncated raw.ino] else []) }

theorem effect_none (raw : RawObj) (w : Host) : effect false false raw w = w := by
  simp [effect]

theorem effect_ticks (l t : Bool) (raw : RawObj) (k : Nat) (w : Host) :
    (effect l t raw w).ticks k = effect l t raw (w.ticks k) := rfl

theorem when_false {α : Type} (m : PyM Host α) (w : Host) : PyM.when false m w = (.ok (), w) := rfl

theorem when_true (m : PyM Host Unit) (w : Host) : PyM.when true m w = m w := by
  unfold PyM.when
  rw [if_pos rfl]
  rcases m w with ⟨_ | _, _⟩ <;> rfl

theorem prepare_course {a : OpenArgs} {t : Bool} {raw : RawObj} {w w' : Host} {r : Except Exn Unit}
    (h : prepare a t raw w = (r, w')) : ∃ k l tr, w' = effect l tr raw (w.ticks k) ∧
      (l = true → raw.seekable = true ∧ a.locking = true) ∧
      (tr = true → raw.seekable = true ∧ t = true ∧ (a.locking = true → l = true)) ∧
      (r = .ok () → (raw.seekable = true → l = a.locking ∧ tr = t)) ∧ (∀ e, r = .error e → some e ∈ w.sched) := by
  unfold prepare at h
  cases hs : raw.seekable with
  | false =>
    rw [hs, when_false] at h
    cases h
    exact ⟨0, false, false, by rw [effect_none, ticks_zero], by simp, by simp, by simp, by simp⟩
  | true =>
    rw [hs, when_true, PyM.bind_apply] at h
    have trunc : ∀ (l : Bool) (k : Nat), (a.locking = true → l = true) → (l = true → a.locking = true) →
        PyM.when t (sysTruncate raw.ino) (effect l false raw (w.ticks k)) = (r, w') → ∃ k l tr, w' = effect l tr raw (w.ticks k) ∧
          (l = true → true = true ∧ a.locking = true) ∧
          (tr = true → true = true ∧ t = true ∧ (a.locking = true → l = true)) ∧
          (r = .ok () → (true = true → l = a.locking ∧ tr = t)) ∧ (∀ e, r = .error e → some e ∈ w.sched) := by
      intro l k hl hl' h
      cases ht : t with
      | false =>
        rw [ht, when_false] at h
        cases h
        exact ⟨k, l, false, rfl, fun h => ⟨rfl, hl' h⟩, by simp,
          fun _ _ => ⟨Bool.eq_iff_iff.2 ⟨hl', hl⟩, rfl⟩, by simp⟩
      | true =>
        rw [ht, when_true] at h
        unfold sysTruncate at h
        rw [PyM.bind_apply, outside_eq] at h
        cases hf : (effect l false raw (w.ticks k)).fails with
        | some e =>
          rw [hf] at h
          cases h
          refine ⟨k + 1, l, false, by rw [tick_eq, effect_ticks, ticks_ticks], fun h => ⟨rfl, hl' h⟩, by simp,
            by simp, ?_⟩
          intro e' he
          cases he
          have := fails_mem hf
          exact List.mem_of_mem_drop this
        | none =>
          rw [hf] at h
          cases h
          refine ⟨k + 1, l, true, ?_, fun h => ⟨rfl, hl' h⟩, fun _ => ⟨rfl, rfl, hl⟩,
            fun _ _ => ⟨Bool.eq_iff_iff.2 ⟨hl', hl⟩, rfl⟩, by simp⟩
          rw [tick_eq, effect_ticks, ticks_ticks]
          simp [effect]
    cases hlk : a.locking with
    | false =>
      rw [hlk, when_false] at h
      refine trunc false 0 (by simp [hlk]) (by simp) ?_ |> fun h => by simpa [hlk] using h
      rw [effect_none, ticks_zero]
      exact h
    | true =>
      rw [hlk, when_true, PyM.bind_apply, outside_eq] at h
      cases hf : w.fails with
      | some e =>
        rw [hf] at h
        cases h
        refine ⟨1, false, false, by rw [effect_none, tick_eq], by simp, by simp, by simp, ?_⟩
        intro e' he
        cases he
        exact fails_mem hf
      | none =>
        rw [hf] at h
        refine trunc true 1 (by simp) (by simp [hlk]) ?_ |> fun h => by simpa [hlk] using h
        rw [← h, tick_eq]
        simp only [effect, if_true, Bool.false_eq_true, if_false, List.append_nil]
        rfl

/-- The size of a buffer for which no size was given. -/
def defaultSize (raw : RawObj) (w : Host) (size : Int) : Prop :=
  (size = 8192 ∧ (raw.fd = 0 ∨ (∃ errno, some (.ioError errno) ∈ w.sched) ∨
    ∀ n, w.nodes[raw.ino]? = some n → n.blksize ≤ 1)) ∨
  (raw.fd ≠ 0 ∧ ∃ n, w.nodes[raw.ino]? = some n ∧ 1 < n.blksize ∧ size = n.blksize)

/-- Whether lines are flushed. -/
def lineBuffering (a : OpenArgs) (raw : RawObj) (w : Host) : Bool :=
  a.bufferingValue = 1 || (a.bufferingValue < 0 && (w.nodes[raw.ino]?.map Node.tty).getD false)

theorem chooseBuffering_course {a : OpenArgs} {raw : RawObj} {w w' : Host} {r : Except Exn (Int × Bool)}
    (h : chooseBuffering a raw w = (r, w')) : ∃ k, w' = w.ticks k ∧
      ((r = .error .assertionError ∧ raw.fd = 0 ∧ a.bufferingValue < 0) ∨
       (∃ e, r = .error e ∧ some e ∈ w.sched) ∨
       (r = .ok (a.bufferingValue, false) ∧ a.bufferingValue ≠ 1 ∧ 0 ≤ a.bufferingValue) ∨
       (∃ size, r = .ok (size, lineBuffering a raw w) ∧ (a.bufferingValue = 1 ∨ (a.bufferingValue < 0 ∧ raw.fd ≠ 0)) ∧
          defaultSize raw w size)) := by
  unfold chooseBuffering at h
  dsimp only at h
  have rest : ∀ line : Bool, line = lineBuffering a raw w → (a.bufferingValue = 1 ∨ (a.bufferingValue < 0 ∧ raw.fd ≠ 0)) →
      ((if (if line then -1 else a.bufferingValue) < 0 then fun w =>
        match (if raw.fd = 0 then (.ok (), w) else outside w : Except Exn Unit × Host) with
        | (.error (.ioError _), w) => (.ok (8192, line), w)
        | (.error e, w) => (.error e, w)
        | (.ok _, w) =>
          let bs := if raw.fd = 0 then 0 else (w.nodes[raw.ino]?.map Node.blksize).getD 0
          (.ok (if 1 < bs then (bs : Int) else 8192, line), w)
      else pure ((if line then -1 else a.bufferingValue), line) : PyM Host (Int × Bool)) w = (r, w')) → ∃ k, w' = w.ticks k ∧
      ((r = .error .assertionError ∧ raw.fd = 0 ∧ a.bufferingValue < 0) ∨
       (∃ e, r = .error e ∧ some e ∈ w.sched) ∨
       (r = .ok (a.bufferingValue, false) ∧ a.bufferingValue ≠ 1 ∧ 0 ≤ a.bufferingValue) ∨
       (∃ size, r = .ok (size, lineBuffering a raw w) ∧ (a.bufferingValue = 1 ∨ (a.bufferingValue < 0 ∧ raw.fd ≠ 0)) ∧
          defaultSize raw w size)) := by
    intro line hline hb h
    have hneg : (if line then -1 else a.bufferingValue) < 0 := by
      rcases hb with hb | hb
      · have : line = true := by rw [hline]; simp [lineBuffering, hb]
        rw [this, if_pos rfl]; decide
      · split <;> omega
    rw [PyM.ite_apply, if_pos hneg] at h
    by_cases h0 : raw.fd = 0
    · rw [if_pos h0] at h
      simp only [h0, if_true] at h
      cases h
      exact ⟨0, rfl, .inr (.inr (.inr ⟨8192, by simp [hline], hb, .inl ⟨rfl, .inl h0⟩⟩))⟩
    · rw [if_neg h0, outside_eq] at h
      cases hf : w.fails with
      | none =>
        rw [hf] at h
        simp only [h0, if_false] at h
        cases h
        refine ⟨1, by rw [tick_eq], .inr (.inr (.inr ⟨_, by rw [hline], hb, ?_⟩))⟩
        change defaultSize raw w (if 1 < (w.nodes[raw.ino]?.map Node.blksize).getD 0 then _ else _)
        split
        · rename_i h1
          right
          refine ⟨h0, ?_⟩
          cases hn : w.nodes[raw.ino]? with
          | none => rw [hn] at h1; simp at h1
          | some n =>
            rw [hn] at h1
            refine ⟨n, rfl, by simpa using h1, ?_⟩
            simp [tick, hn]
        · rename_i h1
          refine .inl ⟨rfl, .inr (.inr fun n hn => ?_)⟩
          rw [hn] at h1
          simpa using h1
      | some e =>
        rw [hf] at h
        dsimp only at h
        have hm := fails_mem hf
        split at h
        · rename_i heq
          cases heq
          cases h
          exact ⟨1, by rw [tick_eq], .inr (.inr (.inr ⟨8192, by rw [hline], hb, .inl ⟨rfl, .inr (.inl ⟨_, hm⟩)⟩⟩))⟩
        · rename_i heq
          cases heq
          cases h
          exact ⟨1, by rw [tick_eq], .inr (.inl ⟨_, rfl, hm⟩)⟩
        · rename_i heq
          cases heq
  rw [PyM.bind_apply] at h
  by_cases h1 : a.bufferingValue = 1
  · rw [if_pos h1] at h
    exact rest true (by simp [lineBuffering, h1]) (.inl h1) h
  · rw [if_neg h1] at h
    by_cases hneg : a.bufferingValue < 0
    · rw [if_pos hneg] at h
      by_cases h0 : raw.fd = 0
      · have hi : isatty raw w = (.error .assertionError, w) := by simp [isatty, h0]
        rw [hi] at h
        cases h
        exact ⟨0, rfl, .inl ⟨rfl, h0, hneg⟩⟩
      · have hi : isatty raw w = (.ok ((w.nodes[raw.ino]?.map Node.tty).getD false), w) := by simp [isatty, h0]
        rw [hi] at h
        refine rest _ ?_ (.inr ⟨hneg, h0⟩) h
        simp [lineBuffering, h1, hneg]
    · rw [if_neg hneg] at h
      dsimp only [PyM.pure_apply] at h
      simp only [Bool.false_eq_true, if_false, hneg] at h
      cases h
      exact ⟨0, rfl, .inr (.inr (.inl ⟨rfl, h1, by omega⟩))⟩

/-- The kind of the buffer. -/
def kindOf (raw : RawObj) : Option BufKind :=
  match raw.readable, raw.writable with
  | true, true => if raw.seekable then some .random else none
  | false, true => some .writer
  | true, false => some .reader
  | false, false => none

theorem layer_course {py : Python} {a : OpenArgs} {kw : RawKw} {ext : ExtKw} {raw : RawObj} {b : Int} {line : Bool}
    {w w' : Host} {r : Except Exn Opened} (h : layer py a kw ext raw b line w = (r, w')) : ∃ k, w' = w.ticks k ∧
      ((r = .error .badValueType ∧ b = 0 ∧ ext.binary = false) ∨
       (r = .error .badValueType ∧ raw.readable = false ∧ raw.writable = false) ∨
       (r = .error .unsupported ∧ b ≠ 0 ∧ raw.readable = true ∧ raw.writable = true ∧ raw.seekable = false) ∨
       (∃ e, r = .error e ∧ b ≠ 0 ∧ ext.binary = false ∧ some e ∈ w.sched) ∨
       (b = 0 ∧ ext.binary = true ∧ r = .ok ⟨raw, none, none, wrapper py a kw⟩) ∨
       (b ≠ 0 ∧ ∃ kind, kindOf raw = some kind ∧
          r = .ok ⟨raw, some (kind, b.toNat), if ext.binary then none else some line, wrapper py a kw⟩)) := by
  unfold layer at h
  rw [PyM.ite_apply] at h
  by_cases h0 : b = 0
  · rw [if_pos h0, PyM.ite_apply] at h
    by_cases hb : ext.binary = true
    · rw [if_pos hb] at h
      cases h
      exact ⟨0, rfl, .inr (.inr (.inr (.inr (.inl ⟨h0, hb, rfl⟩))))⟩
    · rw [if_neg hb] at h
      cases h
      exact ⟨0, rfl, .inl ⟨rfl, h0, by simpa using hb⟩⟩
  · rw [if_neg h0] at h
    dsimp only at h
    have stream : ∀ k : BufKind, kindOf raw = some k →
        (if ext.binary then pure ⟨raw, some (k, b.toNat), none, wrapper py a kw⟩
         else do
          outside
          pure ⟨raw, some (k, b.toNat), some line, wrapper py a kw⟩ : PyM Host Opened) w = (r, w') → ∃ k, w' = w.ticks k ∧
        ((r = .error .badValueType ∧ b = 0 ∧ ext.binary = false) ∨
         (r = .error .badValueType ∧ raw.readable = false ∧ raw.writable = false) ∨
         (r = .error .unsupported ∧ b ≠ 0 ∧ raw.readable = true ∧ raw.writable = true ∧ raw.seekable = false) ∨
         (∃ e, r = .error e ∧ b ≠ 0 ∧ ext.binary = false ∧ some e ∈ w.sched) ∨
         (b = 0 ∧ ext.binary = true ∧ r = .ok ⟨raw, none, none, wrapper py a kw⟩) ∨
         (b ≠ 0 ∧ ∃ kind, kindOf raw = some kind ∧
            r = .ok ⟨raw, some (kind, b.toNat), if ext.binary then none else some line, wrapper py a kw⟩)) := by
      intro k hk h
      rw [PyM.ite_apply] at h
      by_cases hb : ext.binary = true
      · rw [if_pos hb] at h
        cases h
        exact ⟨0, rfl, .inr (.inr (.inr (.inr (.inr ⟨h0, k, hk, by rw [if_pos hb]⟩))))⟩
      · rw [if_neg hb, PyM.bind_apply, outside_eq] at h
        cases hf : w.fails with
        | none =>
          rw [hf] at h
          cases h
          exact ⟨1, by rw [tick_eq], .inr (.inr (.inr (.inr (.inr ⟨h0, k, hk, by rw [if_neg hb]⟩))))⟩
        | some e =>
          rw [hf] at h
          cases h
          exact ⟨1, by rw [tick_eq], .inr (.inr (.inr (.inl ⟨e, rfl, h0, by simpa using hb, fails_mem hf⟩)))⟩
    cases hr : raw.readable <;> cases hw : raw.writable
    · simp only [hr, hw, Bool.and_false, Bool.false_eq_true, if_false] at h
      cases h
      exact ⟨0, rfl, .inr (.inl ⟨rfl, rfl, rfl⟩)⟩
    · simp only [hr, hw, Bool.and_true, Bool.false_eq_true, if_false, if_true] at h
      simpa only [hr, hw] using stream .writer (by simp [kindOf, hr, hw]) h
    · simp only [hr, hw, Bool.and_false, Bool.false_eq_true, if_false, if_true] at h
      simpa only [hr, hw] using stream .reader (by simp [kindOf, hr, hw]) h
    · simp only [hr, hw, Bool.and_true, if_true] at h
      cases hs : raw.seekable with
      | true =>
        simp only [hs, if_true] at h
        simpa only [hr, hw, hs] using stream .random (by simp [kindOf, hr, hw, hs]) h
      | false =>
        simp only [hs, Bool.false_eq_true, if_false] at h
        cases h
        exact ⟨0, rfl, .inr (.inr (.inl ⟨rfl, h0, rfl, rfl, rfl⟩))⟩

theorem closing_error (c : Bool) (fd : Nat) (e : Exn) {α : Type} : ∃ e', closing (α := α) c fd (.error e) = .error e' ∧
    (e' = e ∨ e' = .assertionError ∧ c = true ∧ fd = 0) := by
  unfold closing closeFails
  split
  · rename_i h
    simp only [Bool.and_eq_true, decide_eq_true_eq] at h
    exact ⟨_, rfl, .inr ⟨rfl, h⟩⟩
  · exact ⟨_, rfl, .inl rfl⟩

theorem closing_raises {c : Bool} {fd : Nat} {e x : Exn} {α : Type} (h : (.error x : Except Exn α) = closing c fd (.error e)) :
    x = e ∨ x = .assertionError ∧ c = true ∧ fd = 0 := by
  obtain ⟨e', h1, h2⟩ := closing_error c fd e (α := α)
  rw [h1] at h
  cases h
  exact h2

theorem closing_ne_ok (c : Bool) (fd : Nat) (e : Exn) {α : Type} (x : α) : closing c fd (.error e) ≠ .ok x := by
  obtain ⟨e', h, _⟩ := closing_error c fd e (α := α)
  rw [h]
  nofun

theorem closing_ok {c : Bool} {fd : Nat} {α : Type} {r : Except Exn α} {x : α} (h : closing c fd r = .ok x) : r = .ok x := by
  unfold closing at h
  split at h
  · cases h
  · exact h

theorem closing_cases (c : Bool) (fd : Nat) {α : Type} (r : Except Exn α) (b : Bool) :
    (if b then closing c fd r else r) = r ∨ ((if b then closing c fd r else r) = .error .assertionError ∧ c = true ∧ fd = 0) := by
  cases b
  · exact .inl rfl
  · rw [if_pos rfl]
    unfold closing closeFails
    split
    · rename_i h
      simp only [Bool.and_eq_true, decide_eq_true_eq] at h
      exact .inr ⟨rfl, h⟩
    · exact .inl rfl

theorem closing_owned {c : Bool} {fd : Nat} (h : fd ≠ 0) {α : Type} (r : Except Exn α) : closing c fd r = r := by
  simp [closing, closeFails, h]

theorem closing_borrowed (fd : Nat) {α : Type} (r : Except Exn α) : closing false fd r = r := by
  simp [closing, closeFails]

/-- The course of the protected part. -/
theorem finish_course {py : Python} {a : OpenArgs} {kw : RawKw} {ext : ExtKw} {t : Bool} {raw : RawObj}
    {w w' : Host} {r : Except Exn Opened} (h : finish py a kw ext t raw w = (r, w')) : ∃ k l tr,
      (l = true → raw.seekable = true ∧ a.locking = true) ∧
      (tr = true → raw.seekable = true ∧ t = true ∧ (a.locking = true → l = true)) ∧
      ((∃ e, r = closing raw.closefd raw.fd (.error e) ∧
          w' = closeRaw raw.closefd raw.ino raw.fd (effect l tr raw (w.ticks k)) ∧
          (some e ∈ w.sched ∨ (e = .assertionError ∧ raw.fd = 0 ∧ a.bufferingValue < 0) ∨
           (e = .badValueType ∧ a.bufferingValue = 0 ∧ ext.binary = false) ∨
           (e = .badValueType ∧ raw.readable = false ∧ raw.writable = false) ∨
           (e = .unsupported ∧ raw.readable = true ∧ raw.writable = true ∧ raw.seekable = false))) ∨
       ((raw.seekable = true → l = a.locking ∧ tr = t) ∧ w' = effect l tr raw (w.ticks k) ∧
        ((a.bufferingValue = 0 ∧ ext.binary = true ∧ r = .ok ⟨raw, none, none, wrapper py a kw⟩) ∨
         ∃ kind size line, kindOf raw = some kind ∧
           r = .ok ⟨raw, some (kind, size), if ext.binary then none else some line, wrapper py a kw⟩ ∧
           ((1 < a.bufferingValue ∧ (size : Int) = a.bufferingValue ∧ line = false) ∨
            (a.bufferingValue = 1 ∨ a.bufferingValue < 0 ∧ raw.fd ≠ 0) ∧ defaultSize raw w size ∧
              line = lineBuffering a raw w)))) := by
  unfold finish at h
  have hsched : ∀ {l tr : Bool} {k : Nat} {e : Exn}, some e ∈ (effect l tr raw (w.ticks k)).sched → some e ∈ w.sched :=
    fun h => List.mem_of_mem_drop h
  cases hp : prepare a t raw w with
  | mk r1 w1 =>
    obtain ⟨k1, l, tr, rfl, hl, htr, hok, herr⟩ := prepare_course hp
    cases r1 with
    | error e =>
      rw [PyM.bind_error hp] at h
      cases h
      exact ⟨k1, l, tr, hl, htr, .inl ⟨e, rfl, rfl, .inl (herr e rfl)⟩⟩
    | ok u =>
      rw [PyM.bind_ok hp] at h
      have hok := hok rfl
      cases hc : chooseBuffering a raw (effect l tr raw (w.ticks k1)) with
      | mk r2 w2 =>
        obtain ⟨k2, rfl, hcb⟩ := chooseBuffering_course hc
        rw [effect_ticks, ticks_ticks] at hc
        have hline : lineBuffering a raw (effect l tr raw (w.ticks k1)) = lineBuffering a raw w := by
          unfold lineBuffering effect ticks
          cases tr
          · rfl
          · simp only [if_true, List.getElem?_modify_eq]
            cases w.nodes[raw.ino]? <;> rfl
        have hsize : ∀ size, defaultSize raw (effect l tr raw (w.ticks k1)) size → defaultSize raw w size := by
          intro size hs
          rcases hs with ⟨hs, hr⟩ | ⟨h0, n, hn, h1, hs⟩
          · refine .inl ⟨hs, ?_⟩
            rcases hr with h0 | ⟨errno, hm⟩ | hn
            · exact .inl h0
            · exact .inr (.inl ⟨errno, hsched hm⟩)
            · refine .inr (.inr fun n hn' => ?_)
              cases tr
              · exact hn n hn'
              · refine hn { n with data := [] } ?_
                simp only [effect, if_true, List.getElem?_modify_eq]
                change w.nodes[raw.ino]?.map _ = _
                rw [hn']
                rfl
          · refine .inr ⟨h0, ?_⟩
            cases tr
            · exact ⟨n, hn, h1, hs⟩
            · simp only [effect, if_true, List.getElem?_modify_eq] at hn
              change w.nodes[raw.ino]?.map _ = _ at hn
              rw [Option.map_eq_some_iff] at hn
              obtain ⟨n', hn', rfl⟩ := hn
              exact ⟨n', hn', h1, hs⟩
        have stop : ∀ e, r2 = .error e → (some e ∈ w.sched ∨ (e = .assertionError ∧ raw.fd = 0 ∧ a.bufferingValue < 0) ∨
           (e = .badValueType ∧ a.bufferingValue = 0 ∧ ext.binary = false) ∨
           (e = .badValueType ∧ raw.readable = false ∧ raw.writable = false) ∨
           (e = .unsupported ∧ raw.readable = true ∧ raw.writable = true ∧ raw.seekable = false)) := by
          intro e he
          subst he
          rcases hcb with ⟨he, h⟩ | ⟨e', he, h⟩ | ⟨he, _⟩ | ⟨_, he, _⟩
          · cases he; exact .inr (.inl ⟨rfl, h⟩)
          · cases he; exact .inl (hsched h)
          · cases he
          · cases he
        cases r2 with
        | error e =>
          rw [PyM.bind_error hc] at h
          cases h
          exact ⟨k1 + k2, l, tr, hl, htr, .inl ⟨e, rfl, rfl, stop e rfl⟩⟩
        | ok b =>
          rw [PyM.bind_ok hc] at h
          cases hy : layer py a kw ext raw b.1 b.2 (effect l tr raw (w.ticks (k1 + k2))) with
          | mk r3 w3 =>
            obtain ⟨k3, rfl, hly⟩ := layer_course hy
            rw [hy, effect_ticks, ticks_ticks] at h
            have hb0 : b.1 = 0 → a.bufferingValue = 0 := by
              intro h0
              rcases hcb with ⟨he, _⟩ | ⟨_, he, _⟩ | ⟨he, _⟩ | ⟨_, he, _, hs⟩
              · cases he
              · cases he
              · cases he; exact h0
              · cases he
                rcases hs with ⟨hs, _⟩ | ⟨_, n, _, h1, hs⟩ <;> dsimp only at h0 <;> omega
            refine ⟨k1 + k2 + k3, l, tr, hl, htr, ?_⟩
            rcases hly with ⟨rfl, h0, hb⟩ | ⟨rfl, hr, hw⟩ | ⟨rfl, _, hr, hw, hs⟩ | ⟨e, rfl, _, _, hm⟩ | ⟨h0, hb, rfl⟩ |
              ⟨h0, kind, hk, rfl⟩
            · cases h
              exact .inl ⟨_, rfl, rfl, .inr (.inr (.inl ⟨rfl, hb0 h0, hb⟩))⟩
            · cases h
              exact .inl ⟨_, rfl, rfl, .inr (.inr (.inr (.inl ⟨rfl, hr, hw⟩)))⟩
            · cases h
              exact .inl ⟨_, rfl, rfl, .inr (.inr (.inr (.inr ⟨rfl, hr, hw, hs⟩)))⟩
            · cases h
              exact .inl ⟨_, rfl, rfl, .inl (hsched hm)⟩
            · cases h
              exact .inr ⟨hok, rfl, .inl ⟨hb0 h0, hb, rfl⟩⟩
            · cases h
              refine .inr ⟨hok, rfl, .inr ⟨kind, b.1.toNat, b.2, hk, rfl, ?_⟩⟩
              rcases hcb with ⟨he, _⟩ | ⟨_, he, _⟩ | ⟨he, h1, hn⟩ | ⟨size, he, hv, hs⟩
              · cases he
              · cases he
              · cases he
                dsimp only at h0 ⊢
                exact .inl ⟨by omega, by omega, rfl⟩
              · cases he
                have hs' := hsize _ hs
                refine .inr ⟨hv, ?_, hline⟩
                have : 0 ≤ size := by
                  rcases hs' with ⟨hs, _⟩ | ⟨_, n, _, _, hs⟩ <;> omega
                dsimp only
                rw [Int.toNat_of_nonneg this]
                exact hs'

theorem parse_ok {py : Python} {a : OpenArgs} {r : RawKw × ExtKw} (h : parse py a = .ok r) :
    a.name ≠ .other ∧ a.name.isBool = false ∧
    (isWrong a.mode || isWrong a.buffering || isWrong a.encoding || isWrong a.errors) = false ∧
    (a.threadSafe = true ∨ a.mutex = false) ∧ parseMode py a.name a.modeString a.fileno a.handle a.closefd = .ok r := by
  unfold parse at h
  by_cases h1 : a.name = .other
  · rw [if_pos h1] at h; cases h
  rw [if_neg h1] at h
  by_cases h2 : a.name.isBool = true
  · rw [if_pos h2] at h; cases h
  rw [if_neg h2] at h
  by_cases h3 : (isWrong a.mode || isWrong a.buffering || isWrong a.encoding || isWrong a.errors) = true
  · rw [if_pos h3] at h; cases h
  rw [if_neg h3] at h
  by_cases h4 : (!a.threadSafe && a.mutex) = true
  · rw [if_pos h4] at h; cases h
  rw [if_neg h4] at h
  refine ⟨h1, by simpa using h2, by simpa using h3, ?_, h⟩
  cases ht : a.threadSafe <;> cases hm : a.mutex <;> simp [ht, hm] at h4 ⊢

theorem parseMode_error {py : Python} {name : NameArg} {m : List Char} {fileno handle : Option Int} {closefd : Bool}
    {e : Exn} (h : parseMode py name m fileno handle closefd = .error e) : e = .badValueType := by
  unfold parseMode at h
  dsimp only at h
  split at h
  · unfold parseStandard at h
    extract_lets has creating reading writing appending updating kws at h
    split at h
    · cases h; rfl
    split at h
    · cases h; rfl
    split at h
    · cases h; rfl
    cases name with
    | none => cases h
    | path p => cases h
    | int z => dsimp only at h; split at h <;> cases h; rfl
    | bool b => dsimp only at h; split at h <;> cases h; rfl
    | other => cases h; rfl
  · split at h
    · unfold parseAdvanced at h
      dsimp only at h
      split at h <;> cases h
      rfl
    · cases h; rfl

theorem parse_error {py : Python} {a : OpenArgs} {e : Exn} (h : parse py a = .error e) :
    e = .badValueType ∨ (e = .typeError ∧ a.name = .other) := by
  unfold parse at h
  split at h
  · cases h; rename_i h; exact .inr ⟨rfl, h⟩
  split at h
  · cases h; exact .inl rfl
  split at h
  · cases h; exact .inl rfl
  split at h
  · cases h; exact .inl rfl
  · exact .inl (parseMode_error h)

theorem checkExt_error {a : OpenArgs} {kw : RawKw} {ext : ExtKw} {e : Exn} (h : checkExt a kw ext = .error e) :
    e = .badValueType := by
  unfold checkExt at h
  split at h
  · cases h; rfl
  split at h
  · cases h; rfl
  split at h
  · cases h; rfl
  · cases h

theorem checkExt_ok {a : OpenArgs} {kw : RawKw} {ext : ExtKw} {t : Bool} (h : checkExt a kw ext = .ok t) :
    (ext.truncate = true → kw.write = true ∨ kw.append = true) ∧ ¬ (ext.binary = true ∧ ext.text = true) ∧
    t = (ext.truncate && !(kw.fileno.any (· ≠ 0) || kw.handle.any (· ≠ 0))) := by
  unfold checkExt at h
  by_cases h1 : (ext.truncate && !(kw.write || kw.append)) = true
  · rw [if_pos h1] at h; cases h
  rw [if_neg h1] at h
  by_cases h2 : (ext.binary && ext.text) = true
  · rw [if_pos h2] at h; cases h
  rw [if_neg h2] at h
  by_cases h3 : (ext.binary && (isGiven a.encoding || isGiven a.errors || a.newline)) = true
  · rw [if_pos h3] at h; cases h
  rw [if_neg h3] at h
  refine ⟨?_, by simpa using h2, by cases h; rfl⟩
  cases ht : ext.truncate <;> cases hw : kw.write <;> cases ha : kw.append <;> simp [ht, hw, ha] at h1 ⊢

/-- The state in which the opening begins. -/
def start (a : OpenArgs) (w : Host) : Host :=
  match a.opener with
  | none => w
  | some m => (m w).2

/-- The arguments of the raw stream: those of the mode, or the descriptor of the opener. -/
def Params (a : OpenArgs) (kw kw' : RawKw) : Prop :=
  (a.opener = none ∧ kw' = kw) ∨ (a.opener ≠ none ∧ ∃ fd, kw' = { kw with path := .none, fileno := some fd })

/-- The course of `rsopen`. -/
theorem rsopen_course {py : Python} {a : OpenArgs} {w w' : Host} {r : Except Exn Opened}
    (h : rsopen py a w = (r, w')) :
    (∃ e, r = .error e ∧ ((w' = w ∧ (parse py a = .error e ∨ a.opener ≠ none)) ∨ (w' = start a w ∧
      (a.opener ≠ none ∨ ∃ kw ext, parse py a = .ok (kw, ext) ∧ checkExt a kw ext = .error e)))) ∨
    ∃ kw0 kw ext t, parse py a = .ok (kw0, ext) ∧ Params a kw0 kw ∧ checkExt a kw ext = .ok t ∧
      ((∃ e, r = .error e ∧ RawObj.create kw (start a w) = (.error e, w')) ∨
       ∃ raw w1, RawObj.create kw (start a w) = (.ok raw, w1) ∧ finish py a kw ext t raw w1 = (r, w')) := by
  unfold rsopen at h
  cases hp : parse py a with
  | error e =>
    have : (fun w => (parse py a, w) : PyM Host (RawKw × ExtKw)) w = (.error e, w) := by rw [hp]
    rw [PyM.bind_error this] at h
    cases h
    exact .inl ⟨e, rfl, .inl ⟨rfl, .inl rfl⟩⟩
  | ok x =>
    obtain ⟨kw0, ext⟩ := x
    have : (fun w => (parse py a, w) : PyM Host (RawKw × ExtKw)) w = (.ok (kw0, ext), w) := by rw [hp]
    rw [PyM.bind_ok this] at h
    clear this
    cases hco : callOpener a kw0 w with
    | mk r0 w0 =>
      cases r0 with
      | error e =>
        rw [PyM.bind_error hco] at h
        cases h
        refine .inl ⟨e, rfl, ?_⟩
        unfold callOpener at hco
        cases ho : a.opener with
        | none => rw [ho] at hco; cases hco
        | some m =>
          rw [ho] at hco
          dsimp only at hco
          rw [PyM.ite_apply] at hco
          split at hco
          · cases hco
            exact .inl ⟨rfl, .inr (by simp)⟩
          · refine .inr ⟨?_, .inl (by simp)⟩
            unfold start
            rw [ho]
            dsimp only
            rw [PyM.bind_apply] at hco
            cases hm : m w with
            | mk rm wm =>
              rw [hm] at hco
              cases rm with
              | error e => cases hco; rfl
              | ok fd =>
                dsimp only at hco
                rw [PyM.ite_apply] at hco
                split at hco <;> cases hco
                rfl
      | ok kw =>
        rw [PyM.bind_ok hco] at h
        have hpar : Params a kw0 kw ∧ w0 = start a w := by
          unfold callOpener at hco
          unfold Params start
          cases ho : a.opener with
          | none => rw [ho] at hco; cases hco; exact ⟨.inl ⟨rfl, rfl⟩, rfl⟩
          | some m =>
            rw [ho] at hco
            dsimp only at hco ⊢
            rw [PyM.ite_apply] at hco
            split at hco
            · cases hco
            · rw [PyM.bind_apply] at hco
              cases hm : m w with
              | mk rm wm =>
                rw [hm] at hco
                cases rm with
                | error e => cases hco
                | ok fd =>
                  dsimp only at hco
                  rw [PyM.ite_apply] at hco
                  split at hco <;> cases hco
                  exact ⟨.inr ⟨by simp, fd, rfl⟩, rfl⟩
        obtain ⟨hpar, rfl⟩ := hpar
        cases hc : checkExt a kw ext with
        | error e =>
          have : (fun w => (checkExt a kw ext, w) : PyM Host Bool) (start a w) = (.error e, start a w) := by rw [hc]
          rw [PyM.bind_error this] at h
          cases h
          refine .inl ⟨e, rfl, .inr ⟨rfl, ?_⟩⟩
          rcases hpar with ⟨_, rfl⟩ | ⟨ho, _⟩
          · exact .inr ⟨kw, ext, rfl, hc⟩
          · exact .inl ho
        | ok t =>
          right
          refine ⟨kw0, kw, ext, t, rfl, hpar, hc, ?_⟩
          have : (fun w => (checkExt a kw ext, w) : PyM Host Bool) (start a w) = (.ok t, start a w) := by rw [hc]
          rw [PyM.bind_ok this] at h
          cases hr : RawObj.create kw (start a w) with
          | mk r1 w1 =>
            cases r1 with
            | error e =>
              rw [PyM.bind_error hr] at h
              cases h
              exact .inl ⟨e, rfl, rfl⟩
            | ok raw =>
              rw [PyM.bind_ok hr] at h
              exact .inr ⟨raw, w1, rfl, h⟩

end OpenArgs

end Verif
