import Verif.Props.Utilities

/-!
# C45: what `read_from_file` returns, whatever the system answers
-/

set_option autoImplicit false

namespace Verif.Props

open Verif Verif.Spec Host OpenArgs

/-- An open raw stream with `rest` to read. -/
structure Facing (s : Raw) (rest : Bytes) : Prop where
  opened : s.closed = false
  readable : s.readable = true
  rest : s.data.drop s.pos = rest

/-- Reading took the beginning of the rest, if it returned something. -/
def Partly (rest : Bytes) (r : Except Exn (Option Bytes)) (s' : Raw) : Prop :=
  ∀ got, r = .ok got → ∃ rest', rest = got.getD [] ++ rest' ∧ Facing s' rest'

theorem readallLoop_partly (fuel : Nat) : ∀ (chunks rest : Bytes) (s : Raw), Facing s rest →
    Partly (chunks ++ rest) (Raw.readallLoop fuel chunks s).1 (Raw.readallLoop fuel chunks s).2 := by
  induction fuel with
  | zero => intro _ _ _ _ got h; cases h
  | succ fuel ih =>
    intro chunks rest s h
    unfold Raw.readallLoop
    have hnone : ∀ s', Facing s' rest → Partly (chunks ++ rest) (.ok (if chunks = [] then none else some chunks)) s' := by
      rintro s' hs got hg
      cases hg
      refine ⟨rest, ?_, hs⟩
      by_cases hc : chunks = [] <;> simp [hc]
    have hsome : ∀ s', Facing s' rest → Partly (chunks ++ rest) (.ok (if chunks = [] then some [] else some chunks)) s' := by
      rintro s' hs got hg
      cases hg
      refine ⟨rest, ?_, hs⟩
      by_cases hc : chunks = [] <;> simp [hc]
    rcases Raw.innerRead_cases Raw.chunkSize s with ⟨k, sched', h1, hk, hs⟩ | ⟨sched', h1, hs⟩ | ⟨sched', h1, hs⟩ |
      ⟨e, sched', h1, hs⟩
    · rw [PyM.bind_ok ((Raw.readN_eq _ h.opened h.readable).trans h1), h.rest]
      have hd : ∀ got, rest.take k = got → Facing { s with pos := s.pos + got.length, sched := sched' } (rest.drop k) := by
        rintro _ rfl
        refine ⟨h.opened, h.readable, ?_⟩
        dsimp only
        rw [← List.drop_drop, h.rest, List.length_take]
        by_cases hl : k ≤ rest.length
        · rw [Nat.min_eq_left hl]
        · rw [Nat.min_eq_right (by omega), List.drop_length, List.drop_eq_nil_of_le (by omega)]
      cases ht : rest.take k with
      | nil =>
        have := hd _ ht
        have hr : rest.drop k = rest := by
          have := List.take_append_drop k rest
          rw [ht] at this; exact this
        rw [hr] at this
        exact hsome _ this
      | cons c cs =>
        have := ih (chunks ++ c :: cs) (rest.drop k) _ (hd _ ht)
        rw [List.append_assoc, ← ht, List.take_append_drop] at this
        dsimp only
        rw [← ht]
        exact this
    · rw [PyM.bind_ok ((Raw.readN_eq _ h.opened h.readable).trans h1)]
      exact hnone _ ⟨h.opened, h.readable, h.rest⟩
    · rw [PyM.bind_ok ((Raw.readN_eq _ h.opened h.readable).trans h1)]
      exact hsome _ ⟨h.opened, h.readable, h.rest⟩
    · rw [PyM.bind_error ((Raw.readN_eq _ h.opened h.readable).trans h1)]
      intro got hg; cases hg

/-- A stream without text layer, with `rest` to read. -/
inductive FacingBinary {C : Codec} : AnyStream C → Bytes → Prop
  | raw {s : Raw} {rest : Bytes} (h : Facing s rest) : FacingBinary (.raw s) rest
  | buf {b : Buf} {rest : Bytes} (hk : b.kind = .reader) (he : b.readBuf.drop b.readPos = []) (h : Facing b.raw rest) :
    FacingBinary (.buf b) rest

theorem FacingBinary.read {C : Codec} {s s' : AnyStream C} {rest : Bytes} (h : FacingBinary s rest) {x : Option Chunk}
    (hr : AnyStream.read s = (.ok x, s')) :
    ∃ (got : Option Bytes) (rest' : Bytes), x = got.map Chunk.bytes ∧ rest = got.getD [] ++ rest' ∧ FacingBinary s' rest' := by
  unfold AnyStream.read AnyStream.call at hr
  cases h with
  | @raw s _ h =>
    dsimp only at hr
    have hp : Partly rest (Raw.readall s).1 (Raw.readall s).2 := readallLoop_partly _ [] rest s h
    have e : Raw.read none s = Raw.readall s := by
      unfold Raw.read
      rw [PyM.bind_ok (Raw.checkClosed_ok h.opened), PyM.bind_ok (Raw.checkReadable_ok h.opened h.readable)]
    generalize hq : Raw.readall s = q at hp e
    obtain ⟨r, s1⟩ := q
    cases r with
    | error e' => rw [PyM.bind_error e] at hr; cases hr
    | ok got =>
      rw [PyM.bind_ok e] at hr
      obtain ⟨rest', h1, h2⟩ := hp got rfl
      cases hr
      exact ⟨got, rest', rfl, h1, .raw h2⟩
  | @buf b _ hk he h =>
    dsimp only at hr
    have hp : Partly rest (Raw.readall b.raw).1 (Raw.readall b.raw).2 := readallLoop_partly _ [] rest b.raw h
    generalize hq : Raw.readall b.raw = q at hp
    obtain ⟨r, s1⟩ := q
    have h0 : Buf.resetReadBuf b = (.ok (), { b with readBuf := [], readPos := 0 }) := rfl
    have h3 : Buf.onRaw Raw.readall { b with readBuf := [], readPos := 0 } = (r, { b with readBuf := [], readPos := 0, raw := s1 }) := by
      unfold Buf.onRaw
      dsimp only
      rw [hq]
    have e : Buf.read none b = (r, { b with readBuf := [], readPos := 0, raw := s1 }) := by
      unfold Buf.read
      split
      · rename_i hw; rw [hk] at hw; cases hw
      · unfold Buf.readerRead Buf.readRest
        dsimp only
        rw [PyM.bind_ok h0]
        cases r with
        | error e' => rw [PyM.bind_error h3]
        | ok got =>
          rw [PyM.bind_ok h3, he]
          cases got <;> rfl
      · rename_i hw; rw [hk] at hw; cases hw
    cases r with
    | error e' => rw [PyM.bind_error e] at hr; cases hr
    | ok got =>
      obtain ⟨rest', h1, h2⟩ := hp got rfl
      rw [PyM.bind_ok e] at hr
      cases hr
      exact ⟨got, rest', rfl, h1, .buf hk rfl h2⟩

theorem FacingBinary.blocks {C : Codec} (fuel : Nat) : ∀ {s s' : AnyStream C} {rest : Bytes} {cs : List Chunk}, FacingBinary s rest →
    Site.readBlocks fuel s = (.ok cs, s') → ∃ d, Chunk.join true cs = .ok (.bytes d) ∧ d <+: rest := by
  induction fuel with
  | zero => intro s s' rest cs h hr; cases hr; exact ⟨[], rfl, List.nil_prefix⟩
  | succ fuel ih =>
    intro s s' rest cs h hr
    unfold Site.readBlocks at hr
    cases hq : AnyStream.read s with
    | mk r s1 =>
      cases r with
      | error e => rw [PyM.bind_error hq] at hr; cases hr
      | ok x =>
        rw [PyM.bind_ok hq] at hr
        obtain ⟨got, rest', h1, h2, h3⟩ := h.read hq
        subst h1
        cases got with
        | none => cases hr; exact ⟨[], rfl, List.nil_prefix⟩
        | some c =>
          dsimp only [Option.map] at hr
          by_cases hc : (Chunk.bytes c).falsy
          · rw [if_pos hc] at hr
            cases hr; exact ⟨[], rfl, List.nil_prefix⟩
          · rw [if_neg hc] at hr
            cases hb : Site.readBlocks fuel s1 with
            | mk r2 s2 =>
              cases r2 with
              | error e => rw [PyM.bind_error hb] at hr; cases hr
              | ok cs' =>
                rw [PyM.bind_ok hb] at hr
                cases hr
                obtain ⟨d, g1, g2⟩ := ih h3 hb
                refine ⟨c ++ d, by simp only [Chunk.join, g1], ?_⟩
                rw [h2]
                exact (List.prefix_append_right_inj c).2 g2

/-- The layers of a stream for reading bytes from a regular file. -/
theorem facing_layers {S : Setting} {a : FileArgs} {p : Bytes} {w : Site} {v : Host} {o : Verif.Opened}
    (ho : rsopen S.py (Site.openArgs a (readMode true)) w.host = (.ok o, v))
    (hof : OpenedFile (Site.openArgs a (readMode true)) p w.host v o) :
    ∃ s, Site.layers S a.newline o (Site.rawOf { w with host := v } o.raw) = .ok s ∧ FacingBinary s ((content w.host p).getD []) := by
  obtain ⟨f1, f2, f3, f4, f5, f6, f7⟩ := readMode_facts true
  have hdata := (rawOf_data hof { w with host := v } rfl).2 f4
  obtain ⟨ha1, _, ha3⟩ := opened_access ho
  have hready : Facing (Site.rawOf { w with host := v } o.raw) ((content w.host p).getD []) := by
    refine ⟨rfl, ha1.2 f1, ?_⟩
    rw [hdata]
    have : o.raw.append = false := by
      cases h : o.raw.append with
      | false => rfl
      | true => exact absurd (ha3.1 h) f7
    simp [Site.rawOf, this]
  generalize Site.rawOf { w with host := v } o.raw = raw at hready
  unfold Site.layers
  have ht : o.text = none := (C44_text ho).1.2 (f3.2 rfl)
  cases hb : o.buffer with
  | none => exact ⟨.raw raw, rfl, .raw hready⟩
  | some kn =>
    obtain ⟨k, n⟩ := kn
    have hk : k = .reader := ((C44_kind ho hb).1).2 ⟨f1, f2⟩
    subst hk
    have hn := hof.size _ _ hb
    have hc : Buf.create .reader n raw = .ok ⟨.reader, n, raw, [], 0, []⟩ := by
      unfold Buf.create
      have : n ≠ 0 := by omega
      simp [hready.opened, hready.readable, this]
    dsimp only
    rw [hc]
    dsimp only
    rw [ht]
    exact ⟨_, rfl, .buf rfl rfl hready⟩

/-- C45, reading, for any answers of the system (also of a file that has nothing to offer for the moment): what
`read_from_file` returns is the beginning of the file. -/
theorem C45_prefix {S : Setting} {a : FileArgs} {w w' : Site} {p : Bytes} {x : Chunk} (hp : a.filename = .path p)
    (hreg : RegularOrAbsent w.host p) (h : Site.readFromFile S a true w = (.ok x, w')) :
    ∃ c d, content w.host p = some c ∧ x = .bytes d ∧ d <+: c := by
  change Site.withOpen S a (readMode true) (Site.readBody true) w = _ at h
  obtain ⟨o, v, s, s', hq, h1, h, -⟩ := withOpen_ok h
  have hof := opened_file (a := Site.openArgs a (readMode true)) ⟨hp, rfl, rfl, rfl⟩ hreg hq
  obtain ⟨_, h1', h2⟩ := facing_layers hq hof
  obtain rfl := Except.ok.inj (h1.symm.trans h1')
  have hex := (C37_must_exist (a := Site.openArgs a (readMode true)) ⟨hp, rfl, rfl, rfl⟩ (readMode_facts true).2.2.2.2.2.1 hq).1
  obtain ⟨n, hn⟩ : ∃ n, w.host.nodes[o.raw.ino]? = some n := by
    obtain ⟨n, hn, _⟩ := hreg _ hex; exact ⟨n, hn⟩
  have hc : content w.host p = some n.data := by simp [content, hex, hn]
  rw [hc] at h2
  refine ⟨n.data, ?_⟩
  have key : ∃ s1, Site.readBody true s = (.ok x, s1) := by
    rw [PyM.tryFinally_apply] at h
    generalize Site.readBody true s = q at h
    obtain ⟨r, s1⟩ := q
    dsimp only at h
    generalize AnyStream.close s1 = q2 at h
    obtain ⟨r2, s2⟩ := q2
    cases r2 with
    | error e => cases (Prod.mk.inj h).1
    | ok u =>
      have := (Prod.mk.inj h).1
      exact ⟨s1, by rw [this]⟩
  obtain ⟨s1, hb⟩ := key
  unfold Site.readBody at hb
  cases hk : Site.readBlocks (s.theRaw.data.length + 2) s with
  | mk r s2 =>
    cases r with
    | error e => rw [PyM.bind_error hk] at hb; cases hb
    | ok cs =>
      rw [PyM.bind_ok hk] at hb
      obtain ⟨d, g1, g2⟩ := FacingBinary.blocks _ h2 hk
      rw [g1] at hb
      cases hb
      exact ⟨d, hc, rfl, g2⟩

-- two blocks, then nothing for the moment: the beginning of the file
example : (Site.readFromFile setting (plain (.given 0)) true (site [.count 1, .again, .count 1, .again, .again])).1 =
    .ok (.bytes [1, 2]) := by decide +kernel

end Verif.Props
