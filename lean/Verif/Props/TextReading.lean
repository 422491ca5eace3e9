import Verif.Lemmas.TextHistory
import Verif.Props.Buffered

/-!
# C68 to C70: text streams that are read
-/

set_option autoImplicit false

namespace Verif.Props

open Verif Verif.Spec Verif.Txt

variable {C : Codec}

/-- A text stream that was just opened, at the beginning of a regular file, for reading or for reading and writing. -/
structure TextOpened (nl : Newline) (raw : Raw) (t : Txt C) : Prop where
  built : ∃ k n b lineBuffering linesep, Opened k n raw b ∧ k ≠ .writer ∧
    Txt.create nl lineBuffering linesep b = (.ok (), t)
  start : raw.pos = 0
  blocking : Blocking raw.sched

/-- The position 0. -/
def origin : Cookie := ⟨0, 0, 0, false, 0⟩

/-- The file as the reference sees it. -/
def textOf (raw : Raw) (s : Text) : TextFile := ⟨raw.data, s, [(origin, s)], false, false, raw.events⟩

/-- A stream before its first call. -/
def untouched (C : Codec) (nl : Newline) (lineBuffering : Bool) (linesep : Text) (enc : Option C.Enc) (b : Buf) : Txt C :=
  ⟨b, nl, lineBuffering, linesep, true, true, enc, none, [], 0, none, (0, 0)⟩

theorem TextOpened.shape {nl : Newline} {raw : Raw} {t : Txt C} (h : TextOpened nl raw t) :
    ∃ lb ls b, Buf.Reads b (fileOf raw) ∧ t = untouched C nl lb ls none b := by
  obtain ⟨k, n, b, lb, ls, h1, h2, h3⟩ := h.built
  have hR := h1.R h.blocking
  obtain ⟨hb, _, hcl, _, _⟩ := create_ok h1.created
  have hreads : Buf.Reads b (fileOf raw) := ⟨hR, by rw [hb], by rw [h1.kind]; exact h2⟩
  refine ⟨lb, ls, b, hreads, ?_⟩
  unfold Txt.create at h3
  have hbr : b.raw = raw := by rw [hb]
  rw [hbr, hcl, h1.seekable] at h3
  simp only [Bool.false_eq_true, if_false] at h3
  unfold configure at h3
  simp only [if_true] at h3
  generalize ht0 : (⟨b, nl, lb, ls, true, true, none, none, [], 0, none, (0, 0)⟩ : Txt C) = t0 at h3
  unfold untouched
  rw [ht0]
  have hw : ∃ w, writable t0 = (.ok w, t0) := by
    unfold writable
    split
    · exact ⟨_, rfl⟩
    · have : t0.buf.raw.closed = false := by rw [← ht0]; dsimp only; rw [hbr]; exact hcl
      rw [this]; exact ⟨_, rfl⟩
  obtain ⟨w, hw⟩ := hw
  rw [PyM.bind_ok hw] at h3
  cases w with
  | false => rw [if_neg (by simp)] at h3; exact ((Prod.mk.inj h3).2).symm
  | true =>
    rw [if_pos rfl] at h3
    have htell : onBuf Buf.tell t0 = (.ok 0, t0) := by
      have hp : (fileOf raw).pos = 0 := h.start
      have hbt : Buf.tell t0.buf = (.ok 0, t0.buf) := by rw [← ht0, ← hp]; exact hreads.tell
      exact onBuf_eq hbt
    rw [PyM.bind_ok htell] at h3
    exact (Prod.mk.inj h3).2.symm

theorem untouched_stands {nl : Newline} {Ok : C.Dec × Bool → Prop} (L : LawfulText C nl Ok) (lb : Bool) (ls : Text)
    (enc : Option C.Enc) {b : Buf} {f : File} (hb : Buf.Reads b f) (hp : f.pos = 0) {s : Text} {d : C.Dec × Bool}
    (hs : decodeWith C nl (C.decInit, false) f.data true = .ok (s, d)) :
    Txt.Stands nl Ok (untouched C nl lb ls enc b) ⟨f.data, s, [(origin, s)], false, false, f.log⟩ := by
  have hrest : f.rest = f.data := by unfold File.rest; rw [hp]; rfl
  have hdec : (untouched C nl lb ls enc b).dec = (C.decInit, false) := rfl
  refine ⟨⟨f, ⟨⟨hb, rfl, rfl, by rw [hp]; exact Nat.zero_le _, by rw [hdec]; exact L.first,
    Nat.le_refl _, ?_, ?_, s, d, ?_, rfl, by intro _ h; cases h⟩, fun _ => .none rfl rfl (.inr ⟨.inl hp, hdec⟩)⟩, rfl, rfl⟩, rfl, ?_, ?_⟩
  · rw [hdec, L.firstFresh]; exact List.nil_suffix
  · rw [hdec]; exact fun _ => resume_fresh L L.first L.firstFresh
  · rw [hdec, hrest]; exact hs
  · intro m hm
    obtain rfl := List.mem_singleton.1 hm
    have hb : base C nl origin = (C.decInit, false) := rfl
    refine ⟨Nat.zero_le _, by rw [hb]; exact L.first, by rw [hb]; exact L.firstFresh, fun _ => hb, fun _ => ⟨rfl, rfl, d, ?_⟩,
      fun h => absurd rfl h⟩
    rw [hb]; exact hs
  · intro _ m hm
    obtain rfl := List.mem_singleton.1 hm
    exact .inl rfl

theorem TextOpened.stands {nl : Newline} {raw : Raw} {t : Txt C} (h : TextOpened nl raw t) {Ok : C.Dec × Bool → Prop}
    (L : LawfulText C nl Ok) {s : Text} {d : C.Dec × Bool} (hs : decodeWith C nl (C.decInit, false) raw.data true = .ok (s, d)) :
    Txt.Stands nl Ok t (textOf raw s) := by
  obtain ⟨lb, ls, b, h1, rfl⟩ := h.shape
  exact untouched_stands L lb ls none h1 h.start hs

/-- The laws of a codec, with the end of its decoding. -/
theorem whole {nl : Newline} (hC : LawfulCodec C) {data : Bytes} {text : Text} {d : C.Dec}
    (h : C.decode C.decInit data true = .ok (text, d)) :
    ∃ Ok, LawfulText C nl Ok ∧ ∃ d', decodeWith C nl (C.decInit, false) data true = .ok (incoming nl text, d') := by
  obtain ⟨Ok, L⟩ := hC
  exact ⟨_, L.text nl, _, (decodeWith_whole h (L.again L.first h)).1⟩

/-! ## C68: the text does not depend on the chunks -/

/-- C68 and C69, for histories.  The file can be decoded.  For every buffer size, every pattern of short reads, and every
history of calls, the results are those of a text with a position, up to the first call that is not considered by
`TextCall`: those that write or close, a position that did not come from `tell` or `seek`, a lock that was granted after
others had changed the file, `flush` and `size` inside an iteration.
Missing: for the last ones it is false (`C68_refuted`); after a `seek` to a position inside a character sequence that
must be decoded as a whole, the reference allows `tell` to fail, which happens (`C69_refuted`). -/
theorem C68_history_partial (hC : LawfulCodec C) {guess : Nat × Nat → Nat → Nat} (hg : Moderate guess) {nl : Newline} {raw : Raw} {t : Txt C}
    (h : TextOpened nl raw t) {text : Text} {d : C.Dec} (hd : C.decode C.decInit raw.data true = .ok (text, d)) (ops : List Txt.Op) :
    ∃ pre post f, ops = pre ++ post ∧ TextConforms nl (textOf raw (incoming nl text)) (pre.zip (t.run guess pre).1) f ∧
      (post = [] ∨ ∃ op rest, post = op :: rest ∧ ¬ TextCall f op) := by
  obtain ⟨Ok, L, d', hs⟩ := whole (nl := nl) hC hd
  obtain ⟨pre, post, f, e1, e2, _, e4⟩ := run_spec L hg ops t _ (h.stands L hs)
  exact ⟨pre, post, f, e1, e2, e4⟩

/-- The pieces that reads of the given sizes deliver. -/
def pieces : Text → List Int → List Text
  | _, [] => []
  | s, n :: ns => limit n s :: pieces (s.drop (limit n s).length) ns

theorem reads_pieces {nl : Newline} {Ok : C.Dec × Bool → Prop} (L : LawfulText C nl Ok) {guess : Nat × Nat → Nat → Nat} (hg : Moderate guess)
    (sizes : List Int) : ∀ (t : Txt C) (x : TextFile), Txt.Stands nl Ok t x →
      (t.run guess (sizes.map fun n => .read (some n))).1 = (pieces x.rest sizes).map .text := by
  induction sizes with
  | nil => intro t x _; rfl
  | cons n ns ih =>
    intro t x hx
    obtain ⟨x', ⟨h1, rfl⟩, h3⟩ := step_spec L hg hx (.read (some n)) trivial
    simp only [List.map_cons, Txt.run, pieces]
    rw [h1, ih _ _ h3]; rfl

/-- C68: successive reads deliver successive pieces of the text, whatever the chunks. -/
theorem C68_reads (hC : LawfulCodec C) {guess : Nat × Nat → Nat → Nat} (hg : Moderate guess) {nl : Newline} {raw : Raw} {t : Txt C}
    (h : TextOpened nl raw t) {text : Text} {d : C.Dec} (hd : C.decode C.decInit raw.data true = .ok (text, d)) (sizes : List Int) :
    (t.run guess (sizes.map fun n => .read (some n))).1 = (pieces (incoming nl text) sizes).map .text := by
  obtain ⟨Ok, L, d', hs⟩ := whole (nl := nl) hC hd
  exact reads_pieces L hg sizes t _ (h.stands L hs)

/-- C68: `read()` delivers the whole text. -/
theorem C68_read_all (hC : LawfulCodec C) {guess : Nat × Nat → Nat → Nat} (hg : Moderate guess) {nl : Newline} {raw : Raw} {t : Txt C}
    (h : TextOpened nl raw t) {text : Text} {d : C.Dec} (hd : C.decode C.decInit raw.data true = .ok (text, d)) :
    (t.run guess [.read none]).1 = [.text (incoming nl text)] := by
  obtain ⟨Ok, L, d', hs⟩ := whole (nl := nl) hC hd
  obtain ⟨x', ⟨h1, _⟩, _⟩ := step_spec L hg (h.stands L hs) (.read none) trivial
  simp only [Txt.run, h1]; rfl

/-- The first `n` lines, and then empty strings. -/
def linesOf (nl : Newline) : Nat → Text → List Text
  | 0, _ => []
  | n + 1, s => firstLine nl s :: linesOf nl n (s.drop (firstLine nl s).length)

/-- C68: an iteration delivers the lines of the text, whatever the chunks. -/
theorem C68_lines (hC : LawfulCodec C) {guess : Nat × Nat → Nat → Nat} (hg : Moderate guess) {nl : Newline} {raw : Raw} {t : Txt C}
    (h : TextOpened nl raw t) {text : Text} {d : C.Dec} (hd : C.decode C.decInit raw.data true = .ok (text, d)) (n : Nat) :
    (t.run guess (List.replicate n .next)).1 = (linesOf nl n (incoming nl text)).map .text := by
  obtain ⟨Ok, L, d', hs⟩ := whole (nl := nl) hC hd
  have key : ∀ (n : Nat) (t : Txt C) (x : TextFile), Txt.Stands nl Ok t x →
      (t.run guess (List.replicate n .next)).1 = (linesOf nl n x.rest).map .text := by
    intro n
    induction n with
    | zero => intro t x _; rfl
    | succ n ih =>
      intro t x hx
      obtain ⟨x', ⟨h1, rfl⟩, h3⟩ := step_spec L hg hx .next trivial
      simp only [List.replicate_succ, Txt.run, linesOf]
      rw [h1, ih _ _ h3]; rfl
  exact key n t _ (h.stands L hs)

/-- The lines of a text, one after the other, are the text. -/
theorem C68_lines_whole (nl : Newline) (s : Text) : ∃ n, (linesOf nl n s).flatten = s ∧ [] ∉ linesOf nl n s := by
  have key : ∀ (k : Nat) (s : Text), s.length ≤ k → ∃ n, (linesOf nl n s).flatten = s ∧ [] ∉ linesOf nl n s := by
    intro k
    induction k with
    | zero =>
      intro s hs
      have : s = [] := List.eq_nil_of_length_eq_zero (by omega)
      exact ⟨0, by rw [this]; rfl, by simp [linesOf]⟩
    | succ k ih =>
      intro s hs
      by_cases h0 : s = []
      · exact ⟨0, by rw [h0]; rfl, by simp [linesOf]⟩
      · have hne := firstLine_ne_nil (nl := nl) h0
        obtain ⟨z, hz⟩ := firstLine_prefix nl s
        have hdrop : s.drop (firstLine nl s).length = z := by
          conv => lhs; rhs; rw [← hz]
          exact List.drop_left
        obtain ⟨n, h1, h2⟩ := ih z (by
          have := congrArg List.length hz
          rw [List.length_append] at this
          have := List.length_pos_iff.2 hne
          omega)
        refine ⟨n + 1, ?_, ?_⟩
        · rw [linesOf, hdrop, List.flatten_cons, h1, hz]
        · rw [linesOf, hdrop]
          intro hm
          rcases List.mem_cons.1 hm with hm | hm
          · exact hne hm.symm
          · exact h2 hm
  exact key s.length s (Nat.le_refl _)

/-! ## C69: positions -/

/-- Calls that are considered in every state. -/
def Always (op : Txt.Op) : Prop := ∀ f, TextCall f op

theorem run_always {guess : Nat × Nat → Nat → Nat} (hg : Moderate guess) {nl : Newline} {Ok : C.Dec × Bool → Prop} (L : LawfulText C nl Ok)
    (ops : List Txt.Op) (hops : ∀ op ∈ ops, Always op) : ∀ (t : Txt C) (x : TextFile), Txt.Stands nl Ok t x →
    ∃ x', Txt.Stands nl Ok (t.run guess ops).2 x' ∧ (∀ m ∈ x.marks, m ∈ x'.marks) ∧ x'.data = x.data := by
  induction ops with
  | nil => intro t x h; exact ⟨x, h, fun _ hm => hm, rfl⟩
  | cons op ops ih =>
    intro t x h
    obtain ⟨x1, h1, h2⟩ := step_spec L hg h op (hops op (by simp) x)
    obtain ⟨x', h3, h4, h5⟩ := ih (fun o ho => hops o (by simp [ho])) _ _ h2
    have h6 : (∀ m ∈ x.marks, m ∈ x1.marks) ∧ x1.data = x.data := by
      have hHere : ∀ {done : Cookie → Txt.Out} {out : Txt.Out} {log : List RawEv}, x.Here done out x1 log →
          (∀ m ∈ x.marks, m ∈ x1.marks) ∧ x1.data = x.data := by
        intro done out log hh
        unfold TextFile.Here at hh
        split at hh
        · rw [hh.2]; exact ⟨fun _ hm => hm, rfl⟩
        · rcases hh with ⟨c, _, rfl⟩ | ⟨_, _, rfl⟩
          · exact ⟨fun m hm => List.mem_cons_of_mem _ hm, rfl⟩
          · exact ⟨fun _ hm => hm, rfl⟩
      cases op with
      | read n => rw [h1.2]; exact ⟨fun _ hm => hm, rfl⟩
      | readline n => rw [h1.2]; exact ⟨fun _ hm => hm, rfl⟩
      | next => rw [h1.2]; exact ⟨fun _ hm => hm, rfl⟩
      | flush => rw [h1.2]; exact ⟨fun _ hm => hm, rfl⟩
      | size => rw [h1.2]; exact ⟨fun _ hm => hm, rfl⟩
      | readinto => rw [h1.2]; exact ⟨fun _ hm => hm, rfl⟩
      | tell =>
        simp only [TextAllowed] at h1
        split at h1
        · rw [h1.2]; exact ⟨fun _ hm => hm, rfl⟩
        · rcases h1 with ⟨c, _, rfl⟩ | ⟨_, _, rfl⟩
          · exact ⟨fun m hm => List.mem_cons_of_mem _ hm, rfl⟩
          · exact ⟨fun _ hm => hm, rfl⟩
      | seek m =>
        cases m with
        | to c =>
          cases c with
          | none => rw [h1.2]; exact ⟨fun _ hm => hm, rfl⟩
          | some c =>
            obtain ⟨r, _, _, rfl⟩ := h1
            exact ⟨fun m hm => List.mem_cons_of_mem _ hm, rfl⟩
        | here => exact hHere h1
        | toEnd => rw [h1.2]; exact ⟨fun m hm => List.mem_cons_of_mem _ hm, rfl⟩
        | relative => rw [h1.2]; exact ⟨fun _ hm => hm, rfl⟩
        | badWhence => rw [h1.2]; exact ⟨fun _ hm => hm, rfl⟩
      | lock others => exact hHere h1
      | unlock => exact hHere h1
      | write s => exact h1.elim
      | truncate a => exact h1.elim
      | sync a b c => exact h1.elim
      | close => exact h1.elim
    exact ⟨x', h3, fun m hm => h4 m (h6.1 m hm), h5.trans h6.2⟩

/-- Whatever is considered without regard to the state. -/
theorem always_read (n : Option Int) : Always (.read n) := fun _ => trivial

/-- C69: `tell` returns a position, other calls are made, `seek` goes back to it: the text that follows is the one that
followed at the time of `tell`. -/
theorem C69_tell_seek (hC : LawfulCodec C) {guess : Nat × Nat → Nat → Nat} (hg : Moderate guess) {nl : Newline} {raw : Raw} {t₀ t : Txt C}
    (h : TextOpened nl raw t₀) {text : Text} {d : C.Dec} (hd : C.decode C.decInit raw.data true = .ok (text, d))
    (before between : List Txt.Op) (hb : ∀ op ∈ before, Always op) (hb' : ∀ op ∈ between, Always op)
    (ht : t = (t₀.run guess before).2) {c : Cookie} (hc : (t.step guess .tell).1 = .cookie c) :
    ∃ r, (t.run guess [.read none]).1 = [.text r] ∧
      ((t.run guess (.tell :: between)).2.run guess [.seek (.to (some c)), .read none]).1 = [.cookie c, .text r] := by
  obtain ⟨Ok, L, d', hs⟩ := whole (nl := nl) hC hd
  obtain ⟨x, hx, _, _⟩ := run_always hg L before hb t₀ _ (h.stands L hs)
  rw [← ht] at hx
  refine ⟨x.rest, ?_, ?_⟩
  · obtain ⟨x', ⟨h1, _⟩, _⟩ := step_spec L hg hx (.read none) trivial
    simp only [Txt.run, h1]; rfl
  · obtain ⟨x1, h1, h2⟩ := step_spec L hg hx .tell trivial
    have hm : (c, x.rest) ∈ x1.marks := by
      simp only [TextAllowed] at h1
      rw [hc] at h1
      split at h1
      · exact absurd h1.1 (by simp)
      · rcases h1 with ⟨c', h1, rfl⟩ | ⟨_, h1, _⟩
        · cases h1
          exact List.mem_cons_self
        · cases h1
    obtain ⟨x2, h3, h4, h5⟩ := run_always hg L between hb' _ _ h2
    have h6 : (t.run guess (.tell :: between)).2 = ((t.step guess .tell).2.run guess between).2 := rfl
    rw [h6]
    obtain ⟨f, hr, e1, e2⟩ := h3.reading
    have hmem := h4 _ hm
    generalize ((t.step guess .tell).2.run guess between).2 = u at *
    have hseek : seek guess (.to (some c)) u = seekTo c u := by
      unfold seek; rw [PyM.bind_ok hr.holds.checkClosed, hr.holds.seekable]; rfl
    obtain ⟨t2, f2, k1, k2, k3, k4, k5, k6, _⟩ := seekTo_spec L hr (c := c) (r := x.rest) (by rw [e1]; exact h3.marks _ hmem)
      (fun hn => by rw [e1]; exact h3.early hn _ hmem)
    obtain ⟨t3, f3, r1, _⟩ := read_spec L k2 none
    have hlim : limit ((none : Option Int).getD (-1)) x.rest = x.rest := rfl
    rw [hlim] at r1
    simp only [Txt.run, Txt.step, hseek, k1, Txt.Out.of, r1]

/-- C69: `tell` returns a position, unless lines are iterated over, as long as there was no movement. -/
theorem C69_tell (hC : LawfulCodec C) {guess : Nat × Nat → Nat → Nat} (hg : Moderate guess) {nl : Newline} {raw : Raw} {t : Txt C}
    (h : TextOpened nl raw t) {text : Text} {d : C.Dec} (hd : C.decode C.decInit raw.data true = .ok (text, d)) (sizes : List Int) :
    ∃ c, ((t.run guess (sizes.map fun n => .read (some n))).2.step guess .tell).1 = .cookie c := by
  obtain ⟨Ok, L, d', hs⟩ := whole (nl := nl) hC hd
  have key : ∀ (sizes : List Int) (t : Txt C) (x : TextFile), Txt.Stands nl Ok t x → x.iterating = false → x.sought = false →
      ∃ c, ((t.run guess (sizes.map fun n => .read (some n))).2.step guess .tell).1 = .cookie c := by
    intro sizes
    induction sizes with
    | nil =>
      intro t x hx h1 h2
      obtain ⟨x', h3, _⟩ := step_spec L hg hx .tell trivial
      simp only [TextAllowed, h1, h2, Bool.false_eq_true, if_false] at h3
      rcases h3 with ⟨c, h3, _⟩ | ⟨h3, _⟩
      · exact ⟨c, h3⟩
      · exact h3.elim
    | cons n ns ih =>
      intro t x hx h1 h2
      obtain ⟨x', ⟨_, rfl⟩, h3⟩ := step_spec L hg hx (.read (some n)) trivial
      exact ih _ _ h3 h1 h2
  exact key sizes t _ (h.stands L hs) rfl rfl

/-! ## C70: locks -/

/-- C70: locking a file that nobody else has changed does not move the stream. -/
theorem C70_lock_keeps (hC : LawfulCodec C) {guess : Nat × Nat → Nat → Nat} (hg : Moderate guess) {nl : Newline} {raw : Raw} {t₀ t : Txt C}
    (h : TextOpened nl raw t₀) {text : Text} {d : C.Dec} (hd : C.decode C.decInit raw.data true = .ok (text, d))
    (before : List Txt.Op) (hb : ∀ op ∈ before, Always op) (ht : t = (t₀.run guess before).2)
    (hl : (t.step guess (.lock raw.data)).1 = .done) :
    ∃ r, (t.run guess [.read none]).1 = [.text r] ∧ (t.run guess [.lock raw.data, .read none]).1 = [.done, .text r] := by
  obtain ⟨Ok, L, d', hs⟩ := whole (nl := nl) hC hd
  obtain ⟨x, hx, _, hxd⟩ := run_always hg L before hb t₀ _ (h.stands L hs)
  rw [← ht] at hx
  refine ⟨x.rest, ?_, ?_⟩
  · obtain ⟨x', ⟨h1, _⟩, _⟩ := step_spec L hg hx (.read none) trivial
    simp only [Txt.run, h1]; rfl
  · obtain ⟨x1, h1, h2⟩ := step_spec L hg hx (.lock raw.data) hxd.symm
    have hr : x1.rest = x.rest := by
      simp only [TextAllowed, TextFile.Here] at h1
      rw [hl] at h1
      split at h1
      · exact absurd h1.1 (by simp)
      · rcases h1 with ⟨c, _, rfl⟩ | ⟨_, h1, _⟩
        · rfl
        · cases h1
    obtain ⟨x', ⟨h3, _⟩, _⟩ := step_spec L hg h2 (.read none) trivial
    simp only [Txt.run, hl, h3, hr]; rfl

/-- C70: unlocking does not move the stream. -/
theorem C70_unlock_keeps (hC : LawfulCodec C) {guess : Nat × Nat → Nat → Nat} (hg : Moderate guess) {nl : Newline} {raw : Raw} {t₀ t : Txt C}
    (h : TextOpened nl raw t₀) {text : Text} {d : C.Dec} (hd : C.decode C.decInit raw.data true = .ok (text, d))
    (before : List Txt.Op) (hb : ∀ op ∈ before, Always op) (ht : t = (t₀.run guess before).2)
    (hl : (t.step guess .unlock).1 = .done) :
    ∃ r, (t.run guess [.read none]).1 = [.text r] ∧ (t.run guess [.unlock, .read none]).1 = [.done, .text r] := by
  obtain ⟨Ok, L, d', hs⟩ := whole (nl := nl) hC hd
  obtain ⟨x, hx, _, hxd⟩ := run_always hg L before hb t₀ _ (h.stands L hs)
  rw [← ht] at hx
  refine ⟨x.rest, ?_, ?_⟩
  · obtain ⟨x', ⟨h1, _⟩, _⟩ := step_spec L hg hx (.read none) trivial
    simp only [Txt.run, h1]; rfl
  · obtain ⟨x1, h1, h2⟩ := step_spec L hg hx .unlock trivial
    have hr : x1.rest = x.rest := by
      simp only [TextAllowed, TextFile.Here] at h1
      rw [hl] at h1
      split at h1
      · exact absurd h1.1 (by simp)
      · rcases h1 with ⟨c, _, rfl⟩ | ⟨_, h1, _⟩
        · rfl
        · cases h1
    obtain ⟨x', ⟨h3, _⟩, _⟩ := step_spec L hg h2 (.read none) trivial
    simp only [Txt.run, hl, h3, hr]; rfl

/-- After a lock that was granted when others had left the content `others`. -/
theorem lock_stands {nl : Newline} {Ok : C.Dec × Bool → Prop} (L : LawfulText C nl Ok) {guess : Nat × Nat → Nat → Nat} (hg : Moderate guess)
    {t : Txt C} {x : TextFile} (h : Txt.Stands nl Ok t x) {c : Cookie} (hc : (t.step guess .tell).1 = .cookie c) (hskip : c.skip = 0)
    (hz : c.isZero = true ∨ t.decoder ≠ none) {others : Bytes} (hi : c.position ≤ others.length) {r : Text} {d' : C.Dec × Bool}
    (hr : decodeWith C nl (base C nl c) (others.drop c.position) true = .ok (r, d')) :
    (t.step guess (.lock others)).1 = .done ∧
      Txt.Stands nl Ok (t.step guess (.lock others)).2 ⟨others, r, [(c, r)], false, false, x.log ++ [.lock others]⟩ := by
  obtain ⟨f, hread, hd, hl⟩ := h.reading
  have ht : t.telling = true := by
    cases hti : t.telling with
    | true => rfl
    | false => simp only [Txt.step, tell_iterating hread hti, Txt.Out.of] at hc; cases hc
  obtain ⟨res, t1, g1, g2, g3, g4, g5⟩ := tell_spec L hg hread ht
  have hres : res = .ok c ∧ Denotes nl Ok f.data c x.rest ∧ (t.decoder = none → Early C nl f.data c) := by
    simp only [Txt.step, g1] at hc
    rcases g5 with ⟨c', rfl, q1, q2⟩ | ⟨_, rfl⟩
    · cases hc; exact ⟨rfl, q1, q2⟩
    · cases hc
  obtain ⟨rfl, q1, q2⟩ := hres
  obtain ⟨t2, f2, k1, k2, k3, k4, k5, k6, k7⟩ := seekTo_spec L g2 q1 (fun hn => q2 (g4 ▸ hn))
  obtain ⟨p1, p2, p2', p3⟩ := k7 hskip
  obtain ⟨b', m1, m2⟩ := k2.holds.buf.lockFile others
  have hseek : seek guess .here t = (.ok c, t2) := by
    unfold seek
    rw [PyM.bind_ok hread.holds.checkClosed, hread.holds.seekable]
    simp only [Bool.not_true, Bool.false_eq_true, if_false]
    rw [PyM.bind_ok g1, k1]
  have hlock : lockFile guess others t = (.ok (), { t2 with buf := b' }) := by
    unfold lockFile
    have : resetBuffers guess t = (.ok (), t2) := by unfold resetBuffers; rw [PyM.bind_ok hseek]; rfl
    rw [PyM.bind_ok this, onBuf_eq m1]
  have hstep : t.step guess (.lock others) = (.done, { t2 with buf := b' }) := by simp only [Txt.step, hlock, Txt.Out.of]
  rw [hstep]
  have hnone : t2.decoder = none → c.isZero = true := by
    intro hn
    rcases hz with hz | hz
    · exact hz
    · have h1 : t.decoder = none := by rw [← g4]; exact k6 hn
      exact absurd h1 hz
  have hp0 : c.isZero = true → c.position = 0 ∧ base C nl c = (C.decInit, false) := by
    intro hh
    refine ⟨?_, by unfold base; rw [if_pos hh]⟩
    unfold Cookie.isZero at hh
    exact (of_decide_eq_true hh).1
  have hdec : t2.dec = base C nl c := by
    rcases p3 with ⟨a, _, b⟩ | ⟨a, b, _⟩ | ⟨a, b⟩ | ⟨a, b⟩
    · rw [b, (hp0 a).2]
    · have : t2.dec = setstateWith C t2.newline ([], c.flags) := by unfold dec; rw [b]; rfl
      rw [this, k2.holds.newline]; unfold base; rw [a]; rfl
    · have : t2.dec = (C.decInit, false) := by unfold dec; rw [a]; rfl
      rw [this, (hp0 (hnone a)).2]
    · have : t2.dec = (C.decInit, false) := by unfold dec; rw [a]; rfl
      rw [this, ← b, k2.holds.newline]
  have hdec' : ({ t2 with buf := b' } : Txt C).dec = base C nl c := hdec
  have hrest : ({ f2 with data := others, ahead := false, log := f2.log ++ [.lock others] } : File).rest = others.drop c.position := by
    unfold File.rest; rw [← p1]
  have hsame : Reading nl Ok { t2 with buf := b' } { f2 with data := others, ahead := false, log := f2.log ++ [.lock others] } r false := by
    refine ⟨⟨m2, k2.holds.newline, k2.holds.seekable, ?_, ?_, ?_, ?_, ?_, r, d', ?_, ?_, ?_⟩, fun _ => ?_⟩
    · change f2.pos ≤ others.length
      rw [p1]; exact hi
    · rw [hdec']; exact q1.ok
    · change t2.used ≤ t2.chars.length
      rw [p2']; exact Nat.zero_le _
    · rw [hdec', q1.fresh]; exact List.nil_suffix
    · rw [hdec', q1.fresh]
      intro h0
      rw [resume_fresh L q1.ok q1.fresh]
      exact q1.start (p1 ▸ h0.symm)
    · rw [hdec', hrest]; exact hr
    · change r = t2.chars.drop t2.used ++ r
      rw [p2]; simp
    · change nl.universal = true → t2.chars.getLast? = some 13 → _
      rw [p2]; simp
    · have hzero : c.isZero = true → t2.snapshot = none → Snap nl Ok ({ t2 with buf := b' } : Txt C)
          { f2 with data := others, ahead := false, log := f2.log ++ [.lock others] } false := by
        intro a b
        exact .none b p2 (.inr ⟨.inl (p1.trans (hp0 a).1), hdec'.trans (hp0 a).2⟩)
      have hcase : t2.decoder = none → Snap nl Ok ({ t2 with buf := b' } : Txt C)
          { f2 with data := others, ahead := false, log := f2.log ++ [.lock others] } false := by
        intro a
        cases k2.snap k5 with
        | none s1 _ _ => exact hzero (hnone a) s1
        | some _ _ _ _ s2 => rw [a] at s2; cases s2
      rcases p3 with ⟨a, b, _⟩ | ⟨a, b, e⟩ | ⟨a, b⟩ | ⟨a, b⟩
      · exact hzero a b
      · have hb : base C nl c = setstateWith C nl ([], c.flags) := by unfold base; rw [a]; rfl
        have hok := q1.ok
        have hfr := q1.fresh
        rw [hb] at hok hfr
        refine .some c.flags [] false e (by change t2.decoder.isSome = true; rw [b]; rfl) hok hfr ?_ (by intro hh; cases hh)
          List.nil_suffix ?_ (fun _ => .inl p2)
        · rw [L.nothing hok, hdec', hb]
          change _ = Except.ok (t2.chars, _)
          rw [p2]
        · intro h0
          rw [← hb]
          exact q1.start (p1 ▸ h0.symm)
      · exact hcase a
      · exact hcase a
  refine ⟨rfl, ⟨_, hsame, rfl, ?_⟩, k5, ?_, ?_⟩
  · change f2.log ++ [.lock others] = x.log ++ [.lock others]
    rw [k4, hl]
  · intro m hm
    obtain rfl := List.mem_singleton.1 hm
    obtain ⟨e1, e2, _⟩ := q1.plain hskip
    exact ⟨hi, q1.ok, q1.fresh, q1.start, fun _ => ⟨e1, e2, d', hr⟩, fun hh => absurd hskip hh⟩
  · intro hn m hm
    obtain rfl := List.mem_singleton.1 hm
    exact .inl (hnone hn)

/-- C70.  The stream is at a position `c` with no characters to skip, where the decoder is in its initial state; if it is not
at the beginning, it has been read.  When the lock is granted the content of the file is `others`.  From then on, the
stream is a text stream over that content: what was read before is forgotten.
Missing: positions with characters to skip, for which it is false (`C70_refuted`); the iteration over lines, inside which
locking fails (`C70_iteration_refuted`). -/
theorem C70_lock_partial (hC : LawfulCodec C) {guess : Nat × Nat → Nat → Nat} (hg : Moderate guess) {nl : Newline} {raw : Raw} {t₀ t : Txt C}
    (h : TextOpened nl raw t₀) {text : Text} {d : C.Dec} (hd : C.decode C.decInit raw.data true = .ok (text, d))
    (before : List Txt.Op) (hb : ∀ op ∈ before, Always op) (ht : t = (t₀.run guess before).2)
    {c : Cookie} (hc : (t.step guess .tell).1 = .cookie c) (hskip : c.skip = 0) (hz : c.isZero = true ∨ t.decoder ≠ none)
    (hstate : c.isZero = true ∨ setstateWith C nl ([], c.flags) = (C.decInit, false))
    {others : Bytes} (hi : c.position ≤ others.length) {text' : Text} {d' : C.Dec}
    (hd' : C.decode C.decInit (others.drop c.position) true = .ok (text', d')) (ops : List Txt.Op) :
    (t.step guess (.lock others)).1 = .done ∧ ∃ log pre post f, ops = pre ++ post ∧
      TextConforms nl ⟨others, incoming nl text', [(c, incoming nl text')], false, false, log ++ [.lock others]⟩
        (pre.zip ((t.step guess (.lock others)).2.run guess pre).1) f ∧
      (post = [] ∨ ∃ op rest, post = op :: rest ∧ ¬ TextCall f op) := by
  obtain ⟨Ok, L⟩ := hC
  have L' := L.text nl
  obtain ⟨x, hx, _, hxd⟩ := run_always hg L' before hb t₀ _ (h.stands L' (decodeWith_whole hd (L.again L.first hd)).1)
  rw [← ht] at hx
  have hbase : base C nl c = (C.decInit, false) := by
    unfold base
    split
    · rfl
    · rename_i hh
      exact hstate.elim (fun h => absurd h hh) id
  obtain ⟨h1, h2⟩ := lock_stands L' hg hx hc hskip hz hi (by rw [hbase]; exact (decodeWith_whole hd' (L.again L.first hd')).1)
  obtain ⟨pre, post, f, e1, e2, _, e4⟩ := run_spec L' hg ops _ _ h2
  exact ⟨h1, x.log, pre, post, f, e1, e2, e4⟩

/-- C70: open, lock, read: the text is the one that the file had when the lock was granted, whatever it was before. -/
theorem C70_lock_then_read (hC : LawfulCodec C) {guess : Nat × Nat → Nat → Nat} (hg : Moderate guess) {nl : Newline} {raw : Raw} {t : Txt C}
    (h : TextOpened nl raw t) {others : Bytes} {text : Text} {d : C.Dec} (hd : C.decode C.decInit others true = .ok (text, d))
    (sizes : List Int) :
    (t.run guess (.lock others :: sizes.map fun n => .read (some n))).1 =
      .done :: (pieces (incoming nl text) sizes).map .text := by
  obtain ⟨Ok, L, d', hs⟩ := whole (nl := nl) hC hd
  obtain ⟨lb, ls, b, hb, rfl⟩ := h.shape
  obtain ⟨b1, g1, g2⟩ := hb.flush
  obtain ⟨b2, g3, g4⟩ := g2.flush
  obtain ⟨b3, g5, g6⟩ := g4.seekTo origin.position
  obtain ⟨b4, g7, g8⟩ := g6.lockFile others
  have hfl : ∀ {u v : Buf}, Buf.flush u = (.ok (), v) →
      Txt.flush (untouched C nl lb ls none u) = (.ok (), untouched C nl lb ls none v) := by
    intro u v huv
    unfold Txt.flush
    rw [PyM.bind_ok (onBuf_eq (t := untouched C nl lb ls none u) huv)]; rfl
  have hck : Txt.checkClosed (untouched C nl lb ls none b) = (.ok (), untouched C nl lb ls none b) := by
    unfold Txt.checkClosed
    refine onBuf_eq (t := untouched C nl lb ls none b) (b := b) ?_
    simp [Buf.checkClosed, untouched, hb.opened]
  have htell : Txt.tell guess (untouched C nl lb ls none b) = (.ok origin, untouched C nl lb ls none b1) := by
    have hp : Buf.tell b1 = (.ok 0, b1) := by
      have := g2.tell
      have hst : (fileOf raw).pos = 0 := h.start
      rw [hst] at this; exact this
    have h0 : Txt.tell guess (untouched C nl lb ls none b) = (do
        Txt.flush
        let position ← onBuf Buf.tell
        fun t => (locate guess position t, t) : PyM (Txt C) Cookie) (untouched C nl lb ls none b) := rfl
    rw [h0, PyM.bind_ok (hfl g1), PyM.bind_ok (onBuf_eq (t := untouched C nl lb ls none b1) hp)]
    rfl
  have hseek : Txt.seekTo origin (untouched C nl lb ls none b1) = (.ok origin, untouched C nl lb ls (some C.encInit) b3) := by
    unfold Txt.seekTo
    rw [PyM.bind_ok (hfl g3), PyM.bind_ok (onBuf_eq (t := untouched C nl lb ls none b2) g5)]
    rfl
  have hreset : Txt.resetBuffers guess (untouched C nl lb ls none b) = (.ok (), untouched C nl lb ls (some C.encInit) b3) := by
    unfold Txt.resetBuffers
    have : Txt.seek guess .here (untouched C nl lb ls none b) = (.ok origin, untouched C nl lb ls (some C.encInit) b3) := by
      unfold Txt.seek
      rw [PyM.bind_ok hck]
      exact (PyM.bind_ok htell).trans hseek
    rw [PyM.bind_ok this]; rfl
  have hlock : Txt.step guess (untouched C nl lb ls none b) (.lock others) = (.done, untouched C nl lb ls (some C.encInit) b4) := by
    have : Txt.lockFile guess others (untouched C nl lb ls none b) = (.ok (), untouched C nl lb ls (some C.encInit) b4) := by
      unfold Txt.lockFile
      rw [PyM.bind_ok hreset]
      exact onBuf_eq (t := untouched C nl lb ls (some C.encInit) b3) g7
    simp only [Txt.step, this, Txt.Out.of]
  have hst := untouched_stands L lb ls (some C.encInit) g8 rfl hs
  have := reads_pieces L hg sizes _ _ hst
  simp only [Txt.run, hlock, this]

/-! ## Streams that meet the hypotheses -/

/-- `int(self._b2cratio * chars_to_skip)` without rounding. -/
def quotient : Nat × Nat → Nat → Nat := fun r n => n * r.1 / r.2

theorem quotient_moderate : Moderate quotient := by
  intro k m n h
  unfold quotient
  dsimp only
  rcases Nat.eq_zero_or_pos m with rfl | hm
  · rw [Nat.div_zero]; exact Nat.zero_le _
  · calc n * k / m ≤ m * k / m := Nat.div_le_div_right (Nat.mul_le_mul_right k h)
      _ = k := Nat.mul_div_cancel_left k hm

/-- A stream as `rsopen(name, "RT", buffering=n, newline=nl)` returns it, for a file of which every read is answered in full
or as the schedule says. -/
def textStream (C : Codec) (nl : Newline) (n : Nat) (data : Bytes) (sched : List OsAns) : Txt C :=
  untouched C nl false [10] none ⟨.reader, n, { rawOf data sched with writable := false }, [], 0, []⟩

theorem textStream_opened (C : Codec) (nl : Newline) (n : Nat) (hn : 0 < n) (data : Bytes) (sched : List OsAns) (hb : Blocking sched) :
    TextOpened nl { rawOf data sched with writable := false } (textStream C nl n data sched) := by
  refine ⟨⟨.reader, n, ⟨.reader, n, { rawOf data sched with writable := false }, [], 0, []⟩, false, [10], ⟨?_, rfl, rfl, rfl⟩,
    by nofun, rfl⟩, rfl, hb⟩
  have hn' : ¬ n = 0 := by omega
  simp [Buf.create, rawOf, hn']

theorem blocking_nil : Blocking [] := by intro a ha; cases ha

-- the hypotheses of the theorems hold for the three codecs of the model and every content that can be decoded
example : LawfulCodec latin1 ∧ LawfulCodec utf8 ∧ LawfulCodec utf16 := ⟨latin1_lawful, utf8_lawful, utf16_lawful⟩

-- three bytes per character, four bytes per chunk, and short reads: the characters come out whole
example : (((textStream utf8 .auto 4 [0xE2, 0x82, 0xAC, 0xE2, 0x82, 0xAC, 13, 10, 98] [.count 2, .count 1, .count 4, .count 1]).run quotient
    [.read (some 1), .tell, .next, .read none, .tell]).1) =
    [.text [8364], .cookie ⟨3, 0, 0, false, 0⟩, .text [8364, 10], .text [98], .error (.ioError 0)] := by decide +kernel

example (sizes : List Int) :
    ((textStream utf8 .auto 4 [0xE2, 0x82, 0xAC, 0xE2, 0x82, 0xAC, 13, 10, 98] []).run quotient (sizes.map fun n => .read (some n))).1 =
      (pieces [8364, 8364, 10, 98] sizes).map .text :=
  C68_reads utf8_lawful quotient_moderate (textStream_opened utf8 .auto 4 (by decide) _ _ blocking_nil) (d := [])
    (text := [8364, 8364, 13, 10, 98]) rfl sizes

example : linesOf .auto 3 [97, 10, 10, 98] = [[97, 10], [10], [98]] := by decide
example : pieces [97, 98, 99, 100] [1, 0, 2, -1, 5] = [[97], [], [98, 99], [100], []] := by decide

-- a position inside a chunk with a byte order mark, and the way back
example : ((textStream utf16 .auto 8 [0xFF, 0xFE, 97, 0, 13, 0, 10, 0, 98, 0] []).run quotient
    [.read (some 1), .tell, .read none, .seek (.to (some ⟨4, 0, 0, false, 0⟩)), .read none]).1 =
    [.text [97], .cookie ⟨4, 0, 0, false, 0⟩, .text [10, 98], .cookie ⟨4, 0, 0, false, 0⟩, .text [10, 98]] := by decide +kernel

-- the lock makes the stream forget what it had read ahead
example : ((textStream latin1 .auto 8 [97, 10, 98] []).run quotient [.read (some 2), .lock [97, 10, 88], .read none]).1 =
    [.text [97, 10], .done, .text [88]] := by decide +kernel

/-! ## What is false -/

/-- C68 is false inside an iteration: `size`, or `flush`, enables `tell` again, which then answers from a snapshot that was
not kept up to date.  Locking a file that nobody else changed calls `tell`, and moves the stream: a character is delivered
twice. -/
theorem C68_refuted : ¬ ∀ (nl : Newline) (raw : Raw) (t : Txt latin1), TextOpened nl raw t → ∀ ops,
    (t.run quotient (ops ++ [.size, .lock raw.data, .read none])).1.getLast? = (t.run quotient (ops ++ [.read none])).1.getLast? := by
  intro h
  have := h .lf _ _ (textStream_opened latin1 .lf 4 (by decide) [97, 98, 99, 10, 100, 10, 101] [] blocking_nil)
    [.read (some 1), .next, .next]
  revert this
  decide +kernel

/-- C69 is false inside an iteration, in the same way: `tell`, enabled by `size`, stops with a failed assertion. -/
theorem C69_iteration_refuted : ¬ ∀ (nl : Newline) (raw : Raw) (t : Txt latin1), TextOpened nl raw t → ∀ ops,
    .error .assertionError ∉ (t.run quotient ops).1 := by
  intro h
  have := h .auto _ _ (textStream_opened latin1 .auto 8 (by decide) [97, 10, 98, 10] [] blocking_nil) [.next, .size, .tell]
  revert this
  decide +kernel

/-- C69 is false after a movement: `tell` uses a ratio of bytes to characters that belongs to an earlier chunk, and stops
with a failed assertion. -/
theorem C69_refuted : ¬ ∀ (nl : Newline) (raw : Raw) (t : Txt utf8), TextOpened nl raw t → ∀ n,
    ∃ c, ((t.run quotient [.read (some n), .seek .here]).2.step quotient .tell).1 = .cookie c := by
  intro h
  obtain ⟨c, hc⟩ := h .auto _ _ (textStream_opened utf8 .auto 16 (by decide)
    [0xE2, 0x82, 0xAC, 0xE2, 0x82, 0xAC, 0xE2, 0x82, 0xAC, 13, 98] [] blocking_nil) 4
  have : ((((textStream utf8 .auto 16 [0xE2, 0x82, 0xAC, 0xE2, 0x82, 0xAC, 0xE2, 0x82, 0xAC, 13, 98] []).run quotient
    [.read (some 4), .seek .here]).2.step quotient .tell).1) = .error .assertionError := by decide +kernel
  rw [this] at hc
  cases hc

/-- C70 is false in general.  The first `n` bytes are the `n` characters that were read, and others have not changed them.
What is read after the lock should be what a stream that was opened on the new content reads; but when the last of these
bytes is a carriage return, the next character was decoded before the lock, and is delivered after it. -/
theorem C70_refuted : ¬ ∀ (raw raw' : Raw) (t t' : Txt latin1), TextOpened .auto raw t → TextOpened .auto raw' t' → ∀ n : Nat,
    raw'.data.take n = raw.data.take n →
    (t.run quotient [.read (some n)]).1 = [.text (universalText ((raw.data.take n).map UInt8.toNat))] →
    (t'.run quotient [.read (some n)]).1 = [.text (universalText ((raw.data.take n).map UInt8.toNat))] →
    (t.run quotient [.read (some n), .lock raw'.data, .read none]).1 =
      (t'.run quotient [.read (some n), .lock raw'.data, .read none]).1 := by
  intro h
  have := h _ _ _ _ (textStream_opened latin1 .auto 8 (by decide) [97, 13, 98] [] blocking_nil)
    (textStream_opened latin1 .auto 8 (by decide) [97, 13, 88] [] blocking_nil) 2 (by decide) (by decide +kernel) (by decide +kernel)
  revert this
  decide +kernel

/-- C70 is false inside an iteration over lines: the stream cannot be locked. -/
theorem C70_iteration_refuted : ¬ ∀ (raw : Raw) (t : Txt latin1), TextOpened .auto raw t → ∀ ops,
    ((t.run quotient ops).2.step quotient (.lock raw.data)).1 = .done := by
  intro h
  have := h _ _ (textStream_opened latin1 .auto 8 (by decide) [97, 10, 98] [] blocking_nil) [.next]
  revert this
  decide +kernel

end Verif.Props
