import Verif.Lemmas.TextTell

/-!
# Histories of a text stream that is read
-/

set_option autoImplicit false

namespace Verif.Txt

open Verif.Spec

variable {C : Codec} {nl : Newline} {Ok : C.Dec × Bool → Prop} {α : Type}

/-- The buffered stream has done something that keeps the position. -/
theorem Reading.rebuf {t : Txt C} {f f' : File} {r : Text} {b : Bool} (h : Reading nl Ok t f r b) {buf : Buf}
    (hb : Buf.Reads buf f') (hd : f'.data = f.data) (hp : f'.pos = f.pos) : Reading nl Ok { t with buf := buf } f' r b := by
  have hr : f'.rest = f.rest := by unfold File.rest; rw [hd, hp]
  obtain ⟨⟨h1, h2, h3, h4, h5, h6, h7, h8, h9⟩, hs⟩ := h
  refine ⟨⟨hb, h2, h3, by rw [hd, hp]; exact h4, h5, h6, by rw [hd, hp]; exact h7, by rw [hp]; exact h8,
    by rw [hr]; exact h9⟩, fun ht => ?_⟩
  cases hs ht with
  | none q1 q2 q3 =>
    refine .none q1 q2 ?_
    rcases q3 with q3 | q3
    · exact .inl ⟨hr.trans q3.1, q3.2⟩
    · exact .inr ⟨q3.1.imp hp.trans id, q3.2⟩
  | some fl i fin q1 q2 q3 q4 q5 q6 q7 q8 q9 =>
    exact .some fl i fin q1 q2 q3 q4 q5 (fun h => hr.trans (q6 h)) (by rw [hd, hp]; exact q7) (by rw [hp]; exact q8) q9

theorem Denotes.atEnd (L : LawfulText C nl Ok) (data : Bytes) : Denotes nl Ok data ⟨data.length, 0, 0, false, 0⟩ [] := by
  have hdrop : data.drop data.length = [] := List.drop_of_length_le (Nat.le_refl _)
  by_cases h : data.length = 0
  · have hb : base C nl (⟨data.length, 0, 0, false, 0⟩ : Cookie) = (C.decInit, false) := by
      unfold base; rw [if_pos (by simp [Cookie.isZero, h])]
    refine ⟨Nat.le_refl _, by rw [hb]; exact L.first, by rw [hb]; exact L.firstFresh, fun _ => hb, fun _ => ⟨rfl, rfl, (C.decInit, false), ?_⟩,
      fun h => absurd rfl h⟩
    · rw [hb, hdrop]; exact L.firstEnd
  · refine Denotes.ofPlain (Nat.le_refl _) L.zero L.zeroFresh rfl (fun h0 => absurd h0 h) (d' := setstateWith C nl ([], 0)) ?_
    rw [hdrop]; exact L.zeroEnd

/-- The stream `t` is at the reference state `x`. -/
structure Stands (nl : Newline) (Ok : C.Dec × Bool → Prop) (t : Txt C) (x : TextFile) : Prop where
  reading : ∃ f, Reading nl Ok t f x.rest x.sought ∧ f.data = x.data ∧ f.log = x.log
  telling : t.telling = !x.iterating
  marks : ∀ m ∈ x.marks, Denotes nl Ok x.data m.1 m.2
  early : t.decoder = none → ∀ m ∈ x.marks, Early C nl x.data m.1

/-- `seek(0, SEEK_CUR)`. -/
theorem seekHere_spec (L : LawfulText C nl Ok) {guess : Nat × Nat → Nat → Nat} (hg : Moderate guess) {t : Txt C} {x : TextFile}
    (h : Stands nl Ok t x) :
    ∃ res t', seek guess .here t = (res, t') ∧
      ((x.iterating = true ∧ res = .error (.ioError 0) ∧ t' = t) ∨
       (x.iterating = false ∧ (∃ c, res = .ok c ∧ Stands nl Ok t' (x.moved c x.rest)) ∨
       (x.iterating = false ∧ x.sought = true ∧ res = .error .assertionError ∧ Stands nl Ok t' x))) := by
  obtain ⟨⟨f, hr, hd, hl⟩, ht, hm, he⟩ := h
  have hunf : seek guess .here t = (do let c ← tell guess; seekTo c : PyM (Txt C) Cookie) t := by
    unfold seek
    rw [PyM.bind_ok hr.holds.checkClosed, hr.holds.seekable]
    rfl
  rw [hunf]
  cases hi : x.iterating with
  | true =>
    rw [hi] at ht
    exact ⟨_, _, PyM.bind_error (tell_iterating hr ht), .inl ⟨rfl, rfl, rfl⟩⟩
  | false =>
    rw [hi] at ht
    obtain ⟨res, t1, g1, g2, g3, g4, g5⟩ := tell_spec L hg hr ht
    rcases g5 with ⟨c, rfl, g6, g7⟩ | ⟨g6, rfl⟩
    · rw [PyM.bind_ok g1]
      obtain ⟨t2, f2, k1, k2, k3, k4, k5, k6, _⟩ := seekTo_spec L g2 g6 (fun hn => g7 (g4 ▸ hn))
      refine ⟨_, _, k1, .inr (.inl ⟨rfl, c, rfl, ⟨f2, k2, k3.trans hd, k4.trans hl⟩, k5, ?_, ?_⟩)⟩
      · intro m hmm
        rcases List.mem_cons.1 hmm with rfl | hmm
        · rw [hd] at g6; exact g6
        · exact hm m hmm
      · intro hn m hmm
        have hn' : t.decoder = none := by rw [← g4]; exact k6 hn
        rcases List.mem_cons.1 hmm with rfl | hmm
        · rw [hd] at g7; exact g7 hn'
        · exact he hn' m hmm
    · rw [PyM.bind_error g1]
      exact ⟨_, _, rfl, .inr (.inr ⟨rfl, g6, rfl, ⟨f, g2, hd, hl⟩, by rw [hi]; exact g3, hm, fun hn => he (g4 ▸ hn)⟩)⟩

theorem Stands.keep {t t' : Txt C} {x : TextFile} (h : Stands nl Ok t x) {f' : File} {r : Text} (hr : Reading nl Ok t' f' r x.sought)
    (hd : f'.data = x.data) (hl : f'.log = x.log) {i : Bool} (hi : t'.telling = !i) (hn : t'.decoder = none → t.decoder = none) :
    Stands nl Ok t' { x with rest := r, iterating := i } :=
  ⟨⟨f', hr, hd, hl⟩, hi, h.marks, fun h' => h.early (hn h')⟩

/-- The forms of `_reset_buffers`. -/
theorem resetBuffers_spec (L : LawfulText C nl Ok) {guess : Nat × Nat → Nat → Nat} (hg : Moderate guess) {t : Txt C} {x : TextFile}
    (h : Stands nl Ok t x) :
    ∃ res t', resetBuffers guess t = (res, t') ∧
      ((x.iterating = true ∧ res = .error (.ioError 0) ∧ t' = t) ∨
       (x.iterating = false ∧ (∃ c, res = .ok () ∧ Stands nl Ok t' (x.moved c x.rest)) ∨
       (x.iterating = false ∧ x.sought = true ∧ res = .error .assertionError ∧ Stands nl Ok t' x))) := by
  obtain ⟨res, t', h1, h2⟩ := seekHere_spec L hg h
  unfold resetBuffers
  rcases h2 with ⟨a, rfl, c⟩ | ⟨a, c, rfl, d⟩ | ⟨a, b, rfl, d⟩
  · exact ⟨_, _, PyM.bind_error h1, .inl ⟨a, rfl, c⟩⟩
  · exact ⟨_, _, PyM.bind_ok h1, .inr (.inl ⟨a, c, rfl, d⟩)⟩
  · exact ⟨_, _, PyM.bind_error h1, .inr (.inr ⟨a, b, rfl, d⟩)⟩

/-- One call. -/
theorem step_spec (L : LawfulText C nl Ok) {guess : Nat × Nat → Nat → Nat} (hg : Moderate guess) {t : Txt C} {x : TextFile}
    (h : Stands nl Ok t x) (op : Op) (hop : TextCall x op) :
    ∃ x', TextAllowed nl x op (step guess t op).1 x' ∧ Stands nl Ok (step guess t op).2 x' := by
  obtain ⟨f, hr, hd, hl⟩ := h.reading
  -- `lock_file` and `unlock_file`
  have hlock : ∀ (m : PyM Buf Unit) (log : List RawEv),
      (∀ (b : Buf) (f : File), f.data = x.data → Buf.Reads b f →
        ∃ b' a, m b = (.ok (), b') ∧ Buf.Reads b' { f with ahead := a, log := f.log ++ log }) →
      ∃ x', x.Here (fun _ => .done) (Out.of (fun _ : Unit => .done) ((resetBuffers guess >>= fun _ => onBuf m) t)).1 x' log ∧
        Stands nl Ok (Out.of (fun _ : Unit => .done) ((resetBuffers guess >>= fun _ => onBuf m) t)).2 x' := by
    intro m log hmlog
    obtain ⟨res, t', h1, h2⟩ := resetBuffers_spec L hg h
    unfold TextFile.Here
    rcases h2 with ⟨a, rfl, rfl⟩ | ⟨a, c, rfl, d⟩ | ⟨a, b, rfl, d⟩
    · rw [PyM.bind_error h1]
      exact ⟨x, by rw [if_pos a]; exact ⟨rfl, rfl⟩, h⟩
    · rw [PyM.bind_ok h1]
      obtain ⟨⟨f1, hr1, hd1, hl1⟩, ht1, hm1, he1⟩ := d
      obtain ⟨b', ah, g1, g2⟩ := hmlog t'.buf f1 hd1 hr1.holds.buf
      rw [onBuf_eq g1]
      refine ⟨{ x.moved c x.rest with log := x.log ++ log }, ?_, ⟨_, hr1.rebuf g2 rfl rfl, hd1, ?_⟩, ht1, hm1, he1⟩
      · rw [if_neg (by rw [a]; simp)]
        exact .inl ⟨c, rfl, rfl⟩
      · change f1.log ++ log = x.log ++ log
        rw [hl1]; rfl
    · rw [PyM.bind_error h1]
      exact ⟨x, by rw [if_neg (by rw [a]; simp)]; exact .inr ⟨b, rfl, rfl⟩, d⟩
  cases op with
  | read n =>
    obtain ⟨t', f', e1, e2, e3, e4, e5⟩ := read_spec L hr n
    refine ⟨_, ⟨?_, rfl⟩, ?_⟩
    · simp only [step, e1, Out.of]
    · simp only [step, e1, Out.of]
      exact h.keep e2 (e3.data.trans hd) (e3.log.trans hl) (e4.trans h.telling) (fun hn => by rw [hn] at e5; cases e5)
  | readline n =>
    obtain ⟨t', f', e1, e2, e3, e4, e5, _⟩ := readline_spec L hr n
    refine ⟨_, ⟨?_, rfl⟩, ?_⟩
    · simp only [step, e1, Out.of]
    · simp only [step, e1, Out.of]
      exact h.keep e2 (e3.data.trans hd) (e3.log.trans hl) (e4.trans h.telling) (fun hn => by rw [hn] at e5; cases e5)
  | next =>
    obtain ⟨t', f', e1, e2, e3, e4, e5⟩ := next_spec L hr
    refine ⟨_, ⟨?_, rfl⟩, ?_⟩
    · simp only [step, e1, Out.of]
    · simp only [step, e1, Out.of]
      exact h.keep e2 (e3.data.trans hd) (e3.log.trans hl) (by rw [e4]; simp) (fun hn => by rw [hn] at e5; cases e5)
  | write s => exact hop.elim
  | flush =>
    have ht : t.telling = true := by rw [h.telling, (hop : x.iterating = false)]; rfl
    obtain ⟨t', e1, e2, e3, e4⟩ := flush_spec hr ht
    refine ⟨x, ⟨?_, rfl⟩, ?_⟩
    · simp only [step, e1, Out.of]
    · simp only [step, e1, Out.of]
      exact h.keep e2 hd hl (e3.trans (by rw [(hop : x.iterating = false)]; rfl)) (fun hn => e4 ▸ hn)
  | tell =>
    simp only [TextAllowed]
    by_cases hi : x.iterating = true
    · have ht : t.telling = false := by rw [h.telling, hi]; rfl
      refine ⟨x, ?_, ?_⟩
      · rw [if_pos hi]; simp only [step, tell_iterating hr ht, Out.of]; exact ⟨trivial, trivial⟩
      · simp only [step, tell_iterating hr ht, Out.of]; exact h
    · simp only [if_neg hi]
      have hi : x.iterating = false := by simpa using hi
      have ht : t.telling = true := by rw [h.telling, hi]; rfl
      obtain ⟨res, t', g1, g2, g3, g4, g5⟩ := tell_spec L hg hr ht
      simp only [step, g1]
      rcases g5 with ⟨c, rfl, g6, g7⟩ | ⟨g6, rfl⟩
      · refine ⟨{ x with marks := (c, x.rest) :: x.marks }, .inl ⟨c, rfl, rfl⟩, ⟨f, g2, hd, hl⟩, ?_, ?_, ?_⟩
        · change t'.telling = !x.iterating
          rw [g3, hi]; rfl
        · intro m hmm
          rcases List.mem_cons.1 hmm with rfl | hmm
          · rw [hd] at g6; exact g6
          · exact h.marks m hmm
        · intro hn m hmm
          have hn' : t.decoder = none := by rw [← g4]; exact hn
          rcases List.mem_cons.1 hmm with rfl | hmm
          · rw [hd] at g7; exact g7 hn'
          · exact h.early hn' m hmm
      · exact ⟨x, .inr ⟨g6, rfl, rfl⟩, h.keep g2 hd hl (g3.trans (by rw [hi]; rfl)) (fun hn => g4 ▸ hn)⟩
  | seek mv =>
    have hck := hr.holds.checkClosed
    have hse := hr.holds.seekable
    cases mv with
    | to c =>
      cases c with
      | none =>
        have : seek guess (.to none) t = (.error .valueError, t) := by
          unfold seek; rw [PyM.bind_ok hck, hse]; rfl
        refine ⟨x, ⟨?_, rfl⟩, ?_⟩
        · simp only [step, this, Out.of]
        · simp only [step, this, Out.of]; exact h
      | some c =>
        obtain ⟨r, hmem⟩ := (hop : ∃ r, (c, r) ∈ x.marks)
        have : seek guess (.to (some c)) t = seekTo c t := by
          unfold seek; rw [PyM.bind_ok hck, hse]; rfl
        obtain ⟨t2, f2, k1, k2, k3, k4, k5, k6, _⟩ := seekTo_spec L hr (c := c) (r := r) (by rw [hd]; exact h.marks _ hmem)
          (fun hn => by rw [hd]; exact h.early hn _ hmem)
        refine ⟨x.moved c r, ⟨r, hmem, ?_, rfl⟩, ?_⟩
        · simp only [step, this, k1, Out.of]
        · simp only [step, this, k1, Out.of]
          refine ⟨⟨f2, k2, k3.trans hd, k4.trans hl⟩, k5, ?_, ?_⟩
          · intro m hmm
            rcases List.mem_cons.1 hmm with rfl | hmm
            · exact h.marks _ hmem
            · exact h.marks m hmm
          · intro hn m hmm
            rcases List.mem_cons.1 hmm with rfl | hmm
            · exact h.early (k6 hn) _ hmem
            · exact h.early (k6 hn) m hmm
    | here =>
      obtain ⟨res, t', h1, h2⟩ := seekHere_spec L hg h
      simp only [TextAllowed, step, h1, TextFile.Here]
      rcases h2 with ⟨a, rfl, rfl⟩ | ⟨a, c, rfl, d⟩ | ⟨a, b, rfl, d⟩
      · exact ⟨x, by rw [if_pos a]; exact ⟨rfl, rfl⟩, h⟩
      · refine ⟨x.moved c x.rest, ?_, d⟩
        rw [if_neg (by rw [a]; simp)]
        refine .inl ⟨c, rfl, ?_⟩
        rw [List.append_nil]; rfl
      · exact ⟨x, by rw [if_neg (by rw [a]; simp)]; exact .inr ⟨b, rfl, rfl⟩, d⟩
    | toEnd =>
      obtain ⟨buf, g1, g2⟩ := hr.holds.buf.flush
      obtain ⟨buf', k1, k2⟩ := g2.seekEnd
      have hsk : seek guess .toEnd t = (.ok ⟨x.data.length, 0, 0, false, 0⟩, { t with
          buf := buf', telling := t.seekable, chars := [], used := 0, snapshot := none
          decoder := t.decoder.map fun _ => (C.decInit, false)
          encoder := some (if !decide (f.data.length = 0) then C.encMid else C.encInit) }) := by
        have hfl : flush t = (.ok (), { t with buf := buf, telling := t.seekable }) := by
          unfold flush; rw [PyM.bind_ok (onBuf_eq g1)]; rfl
        have hse' : onBuf (Buf.seek 0 .fin) { t with buf := buf, telling := t.seekable } =
            (.ok f.data.length, { t with buf := buf', telling := t.seekable }) :=
          onBuf_eq (t := { t with buf := buf, telling := t.seekable }) k1
        unfold seek
        rw [PyM.bind_ok hck, hse]
        simp only [Bool.not_true, Bool.false_eq_true, if_false]
        rw [PyM.bind_ok hfl, PyM.bind_ok hse', ← hd, hse]
        rfl
      refine ⟨x.moved ⟨x.data.length, 0, 0, false, 0⟩ [], ⟨?_, rfl⟩, ?_⟩
      · simp only [step, hsk, Out.of]
      · simp only [step, hsk, Out.of]
        have hdec : ({ t with
          buf := buf', telling := t.seekable, chars := [], used := 0, snapshot := none
          decoder := t.decoder.map fun _ => (C.decInit, false)
          encoder := some (if !decide (f.data.length = 0) then C.encMid else C.encInit) } : Txt C).dec = (C.decInit, false) := by
          unfold dec
          cases t.decoder <;> rfl
        have hrest : ({ f with pos := f.data.length, ahead := false } : File).rest = [] := List.drop_of_length_le (Nat.le_refl _)
        refine ⟨⟨{ f with pos := f.data.length, ahead := false }, ⟨⟨k2, hr.holds.newline, hse, Nat.le_refl _, ?_, Nat.le_refl _, ?_, ?_, ?_⟩,
          fun _ => .none rfl rfl (.inl ⟨hrest, ?_⟩)⟩, hd, hl⟩, hse, ?_, ?_⟩
        · rw [hdec]; exact L.first
        · rw [hdec, L.firstFresh]; exact List.nil_suffix
        · rw [hdec]; exact fun _ => resume_fresh L L.first L.firstFresh
        · refine ⟨[], (C.decInit, false), ?_, rfl, by simp⟩
          rw [hdec, hrest]; exact L.firstEnd
        · rw [hdec]; exact L.firstEnd
        · intro m hmm
          rcases List.mem_cons.1 hmm with rfl | hmm
          · exact Denotes.atEnd L x.data
          · exact h.marks m hmm
        · intro hn m hmm
          have hn' : t.decoder = none := by
            cases hc : t.decoder with
            | none => rfl
            | some d => rw [hc] at hn; cases hn
          rcases List.mem_cons.1 hmm with rfl | hmm
          · exact .inr (.inr (.inr (.inl (List.drop_of_length_le (Nat.le_refl _)))))
          · exact h.early hn' m hmm
    | relative =>
      have : seek guess .relative t = (.error .unsupported, t) := by
        unfold seek; rw [PyM.bind_ok hck, hse]; rfl
      refine ⟨x, ⟨?_, rfl⟩, ?_⟩
      · simp only [step, this, Out.of]
      · simp only [step, this, Out.of]; exact h
    | badWhence =>
      have : seek guess .badWhence t = (.error .valueError, t) := by
        unfold seek; rw [PyM.bind_ok hck, hse]; rfl
      refine ⟨x, ⟨?_, rfl⟩, ?_⟩
      · simp only [step, this, Out.of]
      · simp only [step, this, Out.of]; exact h
  | truncate a => exact hop.elim
  | size =>
    have ht : t.telling = true := by rw [h.telling, (hop : x.iterating = false)]; rfl
    obtain ⟨t', e1, e2, e3, e4⟩ := flush_spec hr ht
    obtain ⟨b', k1, k2⟩ := e2.holds.buf.size
    have : size t = (.ok x.data.length, { t' with buf := b' }) := by
      unfold size; rw [PyM.bind_ok e1, onBuf_eq k1, hd]
    refine ⟨x, ⟨?_, rfl⟩, ?_⟩
    · simp only [step, this, Out.of]
    · simp only [step, this, Out.of]
      exact h.keep (e2.rebuf k2 rfl rfl) hd hl (e3.trans (by rw [(hop : x.iterating = false)]; rfl)) (fun hn => e4 ▸ hn)
  | sync a m fl => exact hop.elim
  | lock others =>
    refine hlock _ _ fun b f hfd hb => ?_
    obtain ⟨b', g1, g2⟩ := hb.lockFile others
    refine ⟨b', false, g1, ?_⟩
    have ho : others = f.data := (hop : others = x.data).trans hfd.symm
    rw [ho] at g2 ⊢
    exact g2
  | unlock =>
    refine hlock _ _ fun b f hfd hb => ?_
    obtain ⟨b', g1, g2⟩ := hb.unlockFile
    refine ⟨b', false, g1, ?_⟩
    rw [← hfd]; exact g2
  | readinto =>
    have : readinto t = (.error .badValueType, t) := by
      unfold readinto; rw [PyM.bind_ok hr.holds.checkClosed]; rfl
    refine ⟨x, ⟨?_, rfl⟩, ?_⟩
    · simp only [step, this, Out.of]
    · simp only [step, this, Out.of]; exact h
  | close => exact hop.elim

/-- Histories: as long as the calls are considered, the stream behaves like the reference. -/
theorem run_spec (L : LawfulText C nl Ok) {guess : Nat × Nat → Nat → Nat} (hg : Moderate guess) (ops : List Op) :
    ∀ (t : Txt C) (x : TextFile), Stands nl Ok t x →
    ∃ pre post x', ops = pre ++ post ∧ TextConforms nl x (pre.zip (run guess t pre).1) x' ∧
      Stands nl Ok (run guess t pre).2 x' ∧ (post = [] ∨ ∃ op rest, post = op :: rest ∧ ¬ TextCall x' op) := by
  induction ops with
  | nil => intro t x h; exact ⟨[], [], x, rfl, .nil x, h, .inl rfl⟩
  | cons op ops ih =>
    intro t x h
    by_cases hop : TextCall x op
    · obtain ⟨x1, h1, h2⟩ := step_spec L hg h op hop
      obtain ⟨pre, post, x', e1, e2, e3, e4⟩ := ih _ _ h2
      exact ⟨op :: pre, post, x', by rw [e1]; rfl, .cons h1 e2, e3, e4⟩
    · exact ⟨[], op :: ops, x, rfl, .nil x, h, .inr ⟨op, ops, rfl, hop⟩⟩

end Verif.Txt
