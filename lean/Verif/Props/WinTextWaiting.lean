import Verif.Lemmas.VacantTexts
import Verif.Props.WinTextUpdating

/-!
# C127 for text streams on windows: streams that wait need no transfer
-/

set_option autoImplicit false

namespace Verif.Props

open Verif Verif.Spec Verif.Txt

variable {C : Codec} {guess : Nat × Nat → Nat → Nat} {d : Bytes}

/-- A stream that has replaced the text. -/
theorem update_bare (hC : LawfulCodec C) (hE : LawfulEncoder C) (hg : Moderate guess)
    {tr mid : TextTrace C} {i : Sid} {w w' : TextTogether C} {t : Txt C} (hw : TextHistory guess d tr w)
    (hw' : TextHistory guess d (tr ++ (.granted i, .done) :: mid) w') (hmid : Within i mid) (ht : w.txts i = some t)
    {o o₁ o₂ o₃ o₄ : Out} {s : Text} (hcalls : callsOf i mid = [(.seek (.to (some (offset 0))), o), (.read none, o₁),
      (.seek (.to (some (offset 0))), o₂), (.write s, o₃), (.truncate none, o₄)]) {text : Text} {e : C.Dec}
    (hd : C.decode C.decInit w.file true = .ok (text, e)) {b : Bytes} (hb : encoded C 0 (outgoing t.linesep t.newline s) = .ok b) :
    ∃ u f, w'.txts i = some u ∧ u.buf.raw.data = w'.file ∧ Txt.Ready t.newline t.linesep .random u f ∧ u.Bare := by
  obtain ⟨t₀, u, h1, h2, h3, h4, h5, h6, h7, h8, h9, h10, h11, _⟩ := TextTogether.alone hw mid.length mid w' rfl hw' hmid
  rw [ht] at h1
  cases h1
  have hr := TextTogether.ready_of h3 h6 h7 h8
  rw [h4, h5] at hr
  obtain ⟨Ok, p, t', d₀, pre, post, doc, L, e1, _, e3, e4, e5, e6, e7, e8⟩ :=
    ready_seek hC hE hg hr (.to (some (offset 0))) (.inr ⟨0, rfl⟩)
      [.read none, .seek (.to (some (offset 0))), .write s, .truncate none]
  dsimp only at e4
  rw [e3 0 rfl, h2] at e4
  have hfind : (blank w.file u.buf.raw.events).Finds C (incoming t.newline) 0 (incoming t.newline text) :=
    .inl (.inr ⟨.inl rfl, Nat.zero_le _, text, e, by rw [List.drop_zero]; exact hd, rfl⟩)
  have hread := e4.reading _ hfind
  obtain ⟨d₁, pre₁, rfl, a1, c1, q1⟩ := doc_go e5 e6 e7 (.inl ⟨_, hread, trivial⟩)
  obtain ⟨x, k1, k2, k3, _⟩ := a1.reads _ hread trivial
  obtain ⟨_, rfl⟩ := k1
  obtain ⟨d₂, pre₂, rfl, a2, c2, q2⟩ := doc_go q1 c1 e7 (.inl rfl)
  obtain ⟨_, a2⟩ := a2
  have hw2 := a2.writing
  rw [← k3] at hw2
  obtain ⟨d₃, pre₃, rfl, a3, c3, q3⟩ := doc_go q2 c2 e7 (.inr ⟨_, hw2, trivial⟩)
  obtain ⟨x, k4, k5, k6, _⟩ := a3.writes _ hw2 trivial
  simp only [offset, SinkAllowed, hb] at k4
  obtain ⟨_, rfl⟩ := k4
  obtain ⟨d₄, pre₄, rfl, a4, c4, q4⟩ := doc_go q3 c3 e7 (.inr ⟨_, k5, trivial⟩)
  obtain ⟨x, k7, k8, k9, _⟩ := a4.writes _ k5 trivial
  obtain ⟨rfl, rfl⟩ := List.append_eq_nil_iff.1 q4.symm
  cases c4
  obtain ⟨hout, _, _⟩ := e8.writing _ k8
  rw [hcalls] at h10 h11
  simp only [List.map_cons, List.map_nil] at h10 h11
  rw [show Txt.run guess u [.seek (.to (some (offset 0))), .read none, .seek (.to (some (offset 0))), .write s, .truncate none] =
    (_ :: (Txt.run guess t' [.read none, .seek (.to (some (offset 0))), .write s, .truncate none]).1,
      (Txt.run guess t' [.read none, .seek (.to (some (offset 0))), .write s, .truncate none]).2) by
    rw [Txt.run]; rw [e1]] at h10 h11
  exact ⟨_, _, h10, h11.symm, hout.ready, ⟨hout.telling, hout.chars, hout.snapshot⟩⟩

/-- A stream that has read the text. -/
theorem look_bare (hC : LawfulCodec C) (hE : LawfulEncoder C) (hg : Moderate guess)
    {tr mid : TextTrace C} {i : Sid} {w w' : TextTogether C} {t : Txt C} (hw : TextHistory guess d tr w)
    (hw' : TextHistory guess d (tr ++ (.granted i, .done) :: mid) w') (hmid : Within i mid) (ht : w.txts i = some t)
    {o o₁ : Out} (hcalls : callsOf i mid = [(.seek (.to (some (offset 0))), o), (.read none, o₁)]) {text : Text} {e : C.Dec}
    (hd : C.decode C.decInit w.file true = .ok (text, e)) :
    ∃ u f, w'.txts i = some u ∧ u.buf.raw.data = w'.file ∧ Txt.Ready t.newline t.linesep .random u f ∧ u.Bare := by
  obtain ⟨t₀, u, h1, h2, h3, h4, h5, h6, h7, h8, h9, h10, h11, _⟩ := TextTogether.alone hw mid.length mid w' rfl hw' hmid
  rw [ht] at h1
  cases h1
  have hr := TextTogether.ready_of h3 h6 h7 h8
  rw [h4, h5] at hr
  obtain ⟨Ok, p, t', d₀, pre, post, doc, L, e1, _, e3, e4, e5, e6, e7, e8⟩ :=
    ready_seek hC hE hg hr (.to (some (offset 0))) (.inr ⟨0, rfl⟩) [.read none]
  have hbare : t'.Bare := by
    obtain ⟨_, p', t'', d', pre', post', doc', _, n1, _, _, n4, n5, n6, _, n8⟩ :=
      ready_seek hC hE hg hr (.to (some (offset 0))) (.inr ⟨0, rfl⟩) []
    rw [e1] at n1
    cases n1
    obtain ⟨rfl, rfl⟩ := List.append_eq_nil_iff.1 n5.symm
    cases n6
    obtain ⟨hout, _, _⟩ := n8.writing _ n4.writing
    exact ⟨hout.telling, hout.chars, hout.snapshot⟩
  dsimp only at e4
  rw [e3 0 rfl, h2] at e4
  have hfind : (blank w.file u.buf.raw.events).Finds C (incoming t.newline) 0 (incoming t.newline text) :=
    .inl (.inr ⟨.inl rfl, Nat.zero_le _, text, e, by rw [List.drop_zero]; exact hd, rfl⟩)
  have hread := e4.reading _ hfind
  obtain ⟨d₁, pre₁, rfl, a1, c1, q1⟩ := doc_go e5 e6 e7 (.inl ⟨_, hread, trivial⟩)
  obtain ⟨x, k1, k2, k3, _⟩ := a1.reads _ hread trivial
  obtain ⟨k1, rfl⟩ := k1
  obtain ⟨rfl, rfl⟩ := List.append_eq_nil_iff.1 q1.symm
  cases c1
  obtain ⟨f, hf, _⟩ := e8.ready
  rw [hcalls] at h10 h11
  simp only [List.map_cons, List.map_nil] at h10 h11
  rw [show Txt.run guess u [.seek (.to (some (offset 0))), .read none] =
    (_ :: (Txt.run guess t' [.read none]).1, (Txt.run guess t' [.read none]).2) by rw [Txt.run]; rw [e1]] at h10 h11
  refine ⟨_, f, h10, h11.symm, hf, ?_⟩
  simp only [Txt.run, Txt.step] at k1 ⊢
  generalize hq : Txt.read none t' = q at k1 ⊢
  obtain ⟨r, t1⟩ := q
  cases r with
  | error e => cases k1
  | ok s =>
    obtain ⟨b1, b2, b3⟩ := read_bare hq hbare.chars
    exact ⟨b3.trans hbare.telling, b1, .inl b2⟩

/-- The streams that do not hold the lock are empty; none failed to wait. -/
def Calm (tr : TextTrace C) (w : TextTogether C) : Prop := (∀ j t, w.txts j = some t → j ∉ lockers tr → t.Vacant) ∧ AllWait tr

theorem AllWait.snoc {tr : TextTrace C} {x : TextItem C × Out} (h : AllWait tr)
    (hx : ∀ i, x.1 = .ask i → x.2 = .done ∨ x.2 = .error .attributeError) : AllWait (tr ++ [x]) := by
  intro i o hm
  rcases List.mem_append.1 hm with hm | hm
  · exact h i o hm
  · obtain rfl := List.mem_singleton.1 hm
    exact hx i rfl

theorem on_other {w : TextTogether C} {i j : Sid} {m : Txt C → Out × Txt C} (h : j ≠ i) : (w.on i m).2.txts j = w.txts j := by
  unfold TextTogether.on
  split
  · rfl
  · simp [TextTogether.keep, h]

theorem on_same {w : TextTogether C} {i : Sid} {m : Txt C → Out × Txt C} {t' : Txt C} (h : (w.on i m).2.txts i = some t') :
    ∃ t, w.txts i = some t ∧ t' = (m (TextTogether.load t w.file)).2 := by
  unfold TextTogether.on at h
  split at h
  · rename_i hn; dsimp only at h; rw [hn] at h; cases h
  · rename_i t ht
    simp only [TextTogether.keep, if_true, Option.some.injEq] at h
    exact ⟨t, ht, h.symm⟩

theorem of_snd {α : Type} (f : α → Out) (x : Except Exn α × Txt C) : (Txt.Out.of f x).2 = x.2 := by
  obtain ⟨r, t⟩ := x
  cases r <;> rfl

/-- The lock may have been taken, but was not given back. -/
theorem locker_snoc {tr : TextTrace C} {x : TextItem C × Out} {j : Sid} (hn : (∀ i, x.1 ≠ .unlock i) ∧ (∀ i, x.1 ≠ .exit i))
    (hs : (∀ i, x.1 = .close i → j ≠ i) ∧ ∀ p, x.1 = .gone p → j.1 ≠ p) (hj : j ∉ lockers (tr ++ [x])) : j ∉ lockers tr := by
  intro h
  apply hj
  rw [TextTogether.lockers_snoc]
  obtain ⟨it, o⟩ := x
  cases it with
  | unlock i => exact absurd rfl (hn.1 i)
  | exit i => exact absurd rfl (hn.2 i)
  | close i => simpa [lockStep] using ⟨h, hs.1 i rfl⟩
  | gone p => simpa [lockStep] using ⟨h, hs.2 p rfl⟩
  | granted i => cases o <;> simp [lockStep, h]
  | _ => simpa [lockStep] using h

theorem Calm.step {tr : TextTrace C} {w : TextTogether C} {it : TextItem C} (h : Calm tr w) (hp : WinEditProper tr it)
    (hn : (∀ i, it ≠ .unlock i) ∧ (∀ i, it ≠ .exit i)) : Calm (tr ++ [(it, (w.step guess it).1)]) (w.step guess it).2 := by
  obtain ⟨h, hall⟩ := h
  refine ⟨?_, AllWait.snoc hall ?_⟩
  rotate_left
  · rintro i e
    dsimp only at e ⊢
    subst e
    simp only [TextTogether.step, TextTogether.on]
    split
    · exact .inr rfl
    · rename_i t ht
      obtain ⟨t', h1, _⟩ := ((h i t ht hp).load w.file).prepared guess
      rw [h1]
      exact .inl rfl
  intro j t ht hj
  cases it with
  | opened i t₀ =>
    have hj' := locker_snoc hn ⟨by simp, by simp⟩ hj
    simp only [TextTogether.step] at ht
    split at ht
    · cases ht
      obtain ⟨_, nl, ls, raw, hb⟩ := hp
      obtain ⟨n, b, lb, hb1, hb2⟩ := hb.built
      obtain ⟨rfl, _, hb3, _⟩ := create_ok hb1.created
      exact Txt.Vacant.created ⟨hb3, hb1.seekable, by simp, rfl, rfl⟩ lb hb2
    · exact h j t ht hj'
  | ask i =>
    have hj' := locker_snoc hn ⟨by simp, by simp⟩ hj
    simp only [TextTogether.step] at ht
    by_cases e : j = i
    · subst e
      obtain ⟨t₀, h0, rfl⟩ := on_same ht
      obtain ⟨t', h1, h2⟩ := ((h j t₀ h0 hj').load w.file).prepared guess
      rw [h1]
      exact h2
    · rw [on_other e] at ht; exact h j t ht hj'
  | granted i =>
    have hj' := locker_snoc hn ⟨by simp, by simp⟩ hj
    simp only [TextTogether.step] at ht
    by_cases e : j = i
    · subst e
      obtain ⟨t₀, h0, rfl⟩ := on_same ht
      rw [of_snd]
      exact ((h j t₀ h0 hj').load w.file).granted _
    · rw [on_other e] at ht; exact h j t ht hj'
  | did i op =>
    have hj' := locker_snoc hn ⟨by simp, by simp⟩ hj
    simp only [TextTogether.step] at ht
    have e : j ≠ i := fun e => hj' (e ▸ hp.1)
    rw [on_other e] at ht; exact h j t ht hj'
  | unlock i => exact absurd rfl (hn.1 i)
  | exit i => exact absurd rfl (hn.2 i)
  | close i =>
    simp only [TextTogether.step] at ht
    split at ht
    · cases ht
    · rename_i e
      rw [on_other e] at ht
      exact h j t ht (locker_snoc hn ⟨by intro _ q; cases q; exact e, by simp⟩ hj)
  | gone p =>
    simp only [TextTogether.step] at ht
    split at ht
    · cases ht
    · rename_i e
      exact h j t ht (locker_snoc hn ⟨by simp, by intro _ q; cases q; exact e⟩ hj)

/-- A stream that waits prepares for the lock without a transfer. -/
theorem Calm.prepares {tr : TextTrace C} {w : TextTogether C} {i : Sid} (h : Calm tr w) (hi : i ∉ lockers tr) : Prepares guess w i :=
  fun t ht => (h.1 i t ht hi).refused.prepare guess

theorem WinEditRun.last {tr : TextTrace C} {x : TextItem C × Out} {w : TextTogether C} (h : WinEditRun guess d (tr ++ [x]) w) :
    ∃ w₀, WinEditRun guess d tr w₀ ∧ WinEditProper tr x.1 ∧ x.2 = (w₀.step guess x.1).1 ∧ w = (w₀.step guess x.1).2 := by
  generalize hq : tr ++ [x] = q at h
  cases h with
  | start => simp at hq
  | item h hp =>
    obtain ⟨rfl, rfl⟩ := List.append_inj' hq rfl |>.imp id (fun e => (List.cons.inj e).1)
    exact ⟨_, h, hp, rfl, rfl⟩

/-- Another item, after which nothing is given back. -/
theorem WinEditRun.more {tr : TextTrace C} {x : TextItem C × Out} {w : TextTogether C} (h : WinEditRun guess d (tr ++ [x]) w)
    (ih : ∀ w₀, WinEditRun guess d tr w₀ → WinEditHistory guess d tr w₀ ∧ Calm tr w₀)
    (hn : WinEditProper tr x.1 → (∀ i, x.1 ≠ .unlock i) ∧ (∀ i, x.1 ≠ .exit i)) :
    WinEditHistory guess d (tr ++ [x]) w ∧ Calm (tr ++ [x]) w := by
  obtain ⟨w₀, h1, h2, h3, rfl⟩ := WinEditRun.last h
  obtain ⟨g1, g2⟩ := ih w₀ h1
  obtain ⟨it, o⟩ := x
  dsimp only at h2 h3 hn ⊢
  subst h3
  refine ⟨.item g1 h2 ?_, g2.step h2 (hn h2)⟩
  rintro i rfl _
  exact g2.prepares h2

/-- A section, until the lock is given back. -/
theorem WinEditRun.within {tr : TextTrace C} {i : Sid} (h0 : lockers tr = [])
    (ih : ∀ w₀, WinEditRun guess d tr w₀ → WinEditHistory guess d tr w₀ ∧ Calm tr w₀) (n : Nat) : ∀ mid : TextTrace C, mid.length = n →
    Within i mid → (∀ w, WinEditRun guess d (tr ++ (.granted i, .done) :: mid) w →
      lockers (tr ++ (.granted i, .done) :: mid) = [i] ∧
      WinEditHistory guess d (tr ++ (.granted i, .done) :: mid) w ∧ Calm (tr ++ (.granted i, .done) :: mid) w) := by
  induction n with
  | zero =>
    intro mid hlen _ w hw
    obtain rfl := List.eq_nil_of_length_eq_zero hlen
    refine ⟨?_, WinEditRun.more hw ih fun _ => ⟨nofun, nofun⟩⟩
    rw [TextTogether.lockers_snoc, h0]
    rfl
  | succ n ihn =>
    intro mid hlen hmid w hw
    obtain ⟨m, x, rfl⟩ : ∃ m x, mid = m ++ [x] := by
      have hne : mid ≠ [] := by intro e; rw [e] at hlen; cases hlen
      exact ⟨mid.dropLast, mid.getLast hne, (List.dropLast_append_getLast hne).symm⟩
    have hm : Within i m := fun y hy => hmid y (List.mem_append_left _ hy)
    have hx := hmid x (by simp)
    have ih' := ihn m (by simpa using hlen) hm
    have hw' : WinEditRun guess d ((tr ++ (.granted i, .done) :: m) ++ [x]) w := by simpa using hw
    obtain ⟨w₁, g1, g2, _⟩ := WinEditRun.last hw'
    have hl := (ih' w₁ g1).1
    have hself : ∀ j, j ∈ lockers (tr ++ (TextItem.granted i, Out.done) :: m) → j = i := by
      intro j hj
      rw [hl] at hj
      exact List.mem_singleton.1 hj
    have hn : (∀ j, x.1 ≠ .unlock j) ∧ (∀ j, x.1 ≠ .exit j) := by
      constructor
      · intro j e
        rw [e] at g2 hx
        obtain rfl := hself j g2
        obtain ⟨op, hop⟩ := hx.1 rfl
        cases hop
      · intro j e
        rw [e] at g2 hx
        obtain rfl := hself j g2.1
        obtain ⟨op, hop⟩ := hx.1 rfl
        cases hop
    have hlock : lockers ((tr ++ (TextItem.granted i, Out.done) :: m) ++ [x]) = [i] := by
      rw [TextTogether.lockers_snoc, hl]
      obtain ⟨it, o⟩ := x
      cases it with
      | granted j =>
        have := g2.2
        rw [hl] at this
        cases this
      | unlock j => exact absurd rfl (hn.1 j)
      | exit j => exact absurd rfl (hn.2 j)
      | close j =>
        have : i ≠ j := by
          rintro rfl
          obtain ⟨op, hop⟩ := hx.1 rfl
          cases hop
        simp [lockStep, this]
      | gone p =>
        have : i.1 ≠ p := by
          rintro rfl
          exact hx.2 rfl
        simp [lockStep, this]
      | _ => simp [lockStep]
    have := WinEditRun.more hw' (fun w₀ h => (ih' w₀ h).2) fun _ => hn
    rw [show tr ++ (TextItem.granted i, Out.done) :: (m ++ [x]) = (tr ++ (TextItem.granted i, Out.done) :: m) ++ [x] by simp]
    exact ⟨hlock, this⟩

theorem WinEditRun.prefix {tr' : TextTrace C} : ∀ {tr : TextTrace C} {w : TextTogether C}, WinEditRun guess d (tr ++ tr') w →
    ∃ w₀, WinEditRun guess d tr w₀ := by
  induction tr' with
  | nil => intro tr w h; exact ⟨w, by simpa using h⟩
  | cons x tr' ih =>
    intro tr w h
    obtain ⟨w₁, h1⟩ := ih (tr := tr ++ [x]) (by simpa using h)
    obtain ⟨w₀, h2, _⟩ := WinEditRun.last h1
    exact ⟨w₀, h2⟩

/-- The stream that gives the lock back. -/
theorem unlock_vacant {nl : Newline} {ls : Text} {i : Sid} {w w' : TextTogether C} {u : Txt C} {f : File} (hu : w'.txts i = some u)
    (hd : u.buf.raw.data = w'.file) (hr : Txt.Ready nl ls .random u f) (hb : u.Bare) (hw : w.ported = (w'.step guess (.unlock i)).2)
    {t : Txt C} (ht : w.txts i = some t) : t.Vacant := by
  obtain ⟨t', h1, h2⟩ := hb.unlock hr guess
  have h3 := ported_txts ht
  rw [hw] at h3
  simp only [TextTogether.step] at h3
  obtain ⟨u', h4, h5⟩ := on_same h3
  rw [hu] at h4
  cases h4
  have hsame : TextTogether.load u w'.file = u := by rw [← hd]; rfl
  rw [hsame, h1] at h5
  exact Txt.Vacant.of_ported (h5 ▸ h2)

/-- All streams that wait are empty, in a file whose text is changed. -/
theorem UpdateTrace.calm (hC : LawfulCodec C) (hE : LawfulEncoder C) (hg : Moderate guess)
    {inc ends : Sid → Text → Text} {tr : TextTrace C} {l : List (Sid × (Text → Text))} (hl : UpdateTrace tr l)
    (hd : ∃ text e, C.decode C.decInit d true = .ok (text, e)) (hr : ∀ s, RoundTrips C s) :
      (∀ i t o, (.opened i t, o) ∈ tr → ends i = outgoing t.linesep t.newline ∧ inc i = incoming t.newline) →
      (∀ i s o, (.did i (.write s), o) ∈ tr → ∃ b, encoded C 0 (ends i s) = .ok b) →
      ∀ w, WinEditRun guess d tr w → WinEditHistory guess d tr w ∧ Calm tr w := by
  have sure : ∀ {tr : TextTrace C} {l : List (Sid × (Text → Text))}, UpdateTrace tr l →
      (∀ i t o, (.opened i t, o) ∈ tr → ends i = outgoing t.linesep t.newline ∧ inc i = incoming t.newline) →
      (∀ i s o, (.did i (.write s), o) ∈ tr → ∃ b, encoded C 0 (ends i s) = .ok b) → ∀ w, WinEditHistory guess d tr w →
      TextHistory guess d (portedTrace tr) w.ported ∧ lockers tr = [] ∧ ∃ text e, C.decode C.decInit w.file true = .ok (text, e) := by
    intro tr l hl he hb w hw
    have hp := (UpdateTrace.ports hC hE hg hl hd hr he hb w hw).1
    have := (UpdateTrace.file hC hE hg (UpdateTrace.ported hl) (inc := inc) (ends := ends) hd hr hp (fun i t o h => by
      obtain ⟨t₀, h1, rfl⟩ := mem_opened_ported h
      exact he i t₀ o h1) fun i s o h => hb i s o (mem_did_ported h)).2
    rw [lockers_ported] at this
    exact ⟨hp, this⟩
  -- a section, when the stream is bare at its end
  have part : ∀ {tr mid : TextTrace C} {i : Sid} {o : Out} {l l' : List (Sid × (Text → Text))}, UpdateTrace tr l →
      UpdateTrace (tr ++ (.granted i, .done) :: mid ++ [(.unlock i, o)]) l' → Within i mid →
      (∀ i t o, (.opened i t, o) ∈ tr → ends i = outgoing t.linesep t.newline ∧ inc i = incoming t.newline) →
      (∀ i s o, (.did i (.write s), o) ∈ tr → ∃ b, encoded C 0 (ends i s) = .ok b) →
      (∀ j t q, (.opened j t, q) ∈ tr ++ (.granted i, .done) :: mid ++ [(.unlock i, o)] →
        ends j = outgoing t.linesep t.newline ∧ inc j = incoming t.newline) →
      (∀ j s q, (.did j (.write s), q) ∈ tr ++ (.granted i, .done) :: mid ++ [(.unlock i, o)] → ∃ b, encoded C 0 (ends j s) = .ok b) →
      (∀ w, WinEditRun guess d tr w → WinEditHistory guess d tr w ∧ Calm tr w) →
      (∀ w w', TextHistory guess d (portedTrace tr) w → TextHistory guess d (portedTrace tr ++ (.granted i, .done) :: portedTrace mid) w' →
        (∃ text e, C.decode C.decInit w.file true = .ok (text, e)) → ∀ t, w.txts i = some t →
        (∃ t₀ q, (TextItem.opened i t₀, q) ∈ tr ∧ t.newline = t₀.newline ∧ t.linesep = t₀.linesep) →
        ∃ u f, w'.txts i = some u ∧ u.buf.raw.data = w'.file ∧ Txt.Ready t.newline t.linesep .random u f ∧ u.Bare) →
      ∀ w, WinEditRun guess d (tr ++ (.granted i, .done) :: mid ++ [(.unlock i, o)]) w →
        WinEditHistory guess d (tr ++ (.granted i, .done) :: mid ++ [(.unlock i, o)]) w ∧
          Calm (tr ++ (.granted i, .done) :: mid ++ [(.unlock i, o)]) w := by
    intro tr mid i o l l' hl hl' hmid he hb he' hb' ih hbare w hw
    obtain ⟨w₁, h1, h2, h3, h4⟩ := WinEditRun.last hw
    obtain ⟨w₀, h0⟩ := WinEditRun.prefix h1
    obtain ⟨n1, n2⟩ := ih w₀ h0
    obtain ⟨p1, p2, p3⟩ := sure hl he hb w₀ n1
    obtain ⟨m1, m2, m3⟩ := WinEditRun.within p2 ih mid.length mid rfl hmid w₁ h1
    dsimp only at h2 h3 h4
    have hfull : WinEditHistory guess d (tr ++ (.granted i, .done) :: mid ++ [(.unlock i, o)]) w := by
      rw [h3, h4]
      exact .item m2 h2 nofun
    refine ⟨hfull, fun j t ht _ => ?_, AllWait.snoc m3.2 nofun⟩
    by_cases e : j = i
    · subst e
      obtain ⟨q1, _, _⟩ := sure hl' he' hb' w hfull
      rw [portedTrace_append, portedTrace_section] at q1
      obtain ⟨w', r1, _, _, r4⟩ := TextHistory.last q1
      obtain ⟨t₁, _, k1, _⟩ := TextTogether.alone p1 _ _ _ rfl r1 hmid.ported
      obtain ⟨t₀, q, s1, s2, s3⟩ := TextTogether.style p1 k1
      obtain ⟨t₂, s4, rfl⟩ := mem_opened_ported s1
      obtain ⟨u, f, g1, g2, g3, g4⟩ := hbare _ _ p1 r1 p3 t₁ k1 ⟨t₂, q, s4, s2, s3⟩
      exact unlock_vacant g1 g2 g3 g4 r4 ht
    · rw [h4] at ht
      simp only [TextTogether.step] at ht
      rw [on_other e] at ht
      exact m3.1 j t ht (by rw [m1]; simpa using e)
  induction hl with
  | start =>
    intro _ _ w hw
    generalize hq : ([] : TextTrace C) = q at hw
    cases hw with
    | start => exact ⟨.start, (fun i t ht => by cases ht), nofun⟩
    | item => simp at hq
  | @other tr l x hl hx ih =>
    intro he hb w hw
    have he' := fun i t o (h : (TextItem.opened i t, o) ∈ tr) => he i t o (List.mem_append_left _ h)
    have hb' := fun i s o (h : (TextItem.did i (.write s), o) ∈ tr) => hb i s o (List.mem_append_left _ h)
    obtain ⟨w₁, g1, _⟩ := WinEditRun.last hw
    have hs := (sure hl he' hb' w₁ (ih he' hb' w₁ g1).1).2.1
    refine WinEditRun.more hw (ih he' hb') fun hp => ⟨fun i e => ?_, fun i e => ?_⟩
    · rw [e] at hp
      have hp : i ∈ lockers tr := hp
      rw [hs] at hp
      cases hp
    · rw [e] at hp
      have hp : i ∈ lockers tr := hp.1
      rw [hs] at hp
      cases hp
  | @look tr mid l i o o' o'' hl hmid hcalls ih =>
    intro he hb
    have he' := fun i t o (h : (TextItem.opened i t, o) ∈ tr) => he i t o (by simp [h])
    have hb' := fun i s o (h : (TextItem.did i (.write s), o) ∈ tr) => hb i s o (by simp [h])
    refine part hl (.look hl hmid hcalls) hmid he' hb' he hb (ih he' hb') fun w w' hw hw' ⟨text, e, hdec⟩ t ht _ => ?_
    exact look_bare hC hE hg hw hw' hmid.ported ht (by rw [callsOf_ported]; exact hcalls) hdec
  | @update tr mid l i g x o o₁ o₂ o₃ o₄ hl hmid hcalls ih =>
    intro he hb
    have he' := fun i t o (h : (TextItem.opened i t, o) ∈ tr) => he i t o (by simp [h])
    have hb' := fun i s o (h : (TextItem.did i (.write s), o) ∈ tr) => hb i s o (by simp [h])
    refine part hl (.update hl hmid hcalls) hmid he' hb' he hb (ih he' hb') fun w w' hw hw' ⟨text, e, hdec⟩ t ht hst => ?_
    obtain ⟨t₀, q, n1, n2, n3⟩ := hst
    have hends : ends i = outgoing t.linesep t.newline := by rw [n2, n3]; exact (he' i t₀ q n1).1
    obtain ⟨b, hbb⟩ := hb i (g x) o₂ (by simp [mem_of_callsOf (show (Op.write (g x), o₂) ∈ callsOf i mid by rw [hcalls]; simp)])
    rw [hends] at hbb
    exact update_bare hC hE hg hw hw' hmid.ported ht (by rw [callsOf_ported]; exact hcalls) hdec hbb

/-- C127 for text streams on windows.  A stream that asks for the lock while another holds it needs no transfer, which the system would
refuse; none fails to wait. -/
theorem C127_text_windows_waiting (hC : LawfulCodec C) (hE : LawfulEncoder C) (hg : Moderate guess)
    {inc ends : Sid → Text → Text} {tr : TextTrace C} {l : List (Sid × (Text → Text))} (hl : UpdateTrace tr l) {w : TextTogether C}
    (hw : WinEditRun guess d tr w)
    (he : ∀ i t o, (.opened i t, o) ∈ tr → ends i = outgoing t.linesep t.newline ∧ inc i = incoming t.newline)
    (hd : ∃ text e, C.decode C.decInit d true = .ok (text, e)) (hr : ∀ s, RoundTrips C s)
    (hb : ∀ i s o, (.did i (.write s), o) ∈ tr → ∃ b, encoded C 0 (ends i s) = .ok b) :
    WinEditHistory guess d tr w ∧ AllWait tr ∧ UpdatedFile C inc ends d l w.file := by
  obtain ⟨h, h'⟩ := UpdateTrace.calm hC hE hg hl hd hr he hb w hw
  exact ⟨h, h'.2, C127_text_windows hC hE hg hl h he hd hr hb⟩

/-- C127 for text streams on windows that all use the same newlines, as `C127_text_windows_final`. -/
theorem C127_text_windows_waiting_final (hC : LawfulCodec C) (hE : LawfulEncoder C) (hg : Moderate guess)
    {nl : Newline} {ls : Text} (hls : Linesep ls) {tr : TextTrace C} {l : List (Sid × (Text → Text))} (hl : UpdateTrace tr l)
    {w : TextTogether C} (hw : WinEditRun guess d tr w) (he : ∀ i t o, (.opened i t, o) ∈ tr → t.linesep = ls ∧ t.newline = nl)
    {text : Text} {e : C.Dec} (hd : C.decode C.decInit d true = .ok (text, e)) (hr : ∀ s, RoundTrips C s)
    (hb : ∀ i s o, (.did i (.write s), o) ∈ tr → ∃ b, encoded C 0 (outgoing ls nl s) = .ok b)
    (hk : Lossless nl (incoming nl text)) (hk' : ∀ x ∈ l, ∀ s, Lossless nl s → Lossless nl (x.2 s)) :
    (∃ text' e', C.decode C.decInit w.file true = .ok (text', e') ∧ incoming nl text' = textAfter l (incoming nl text)) ∧
      (l ≠ [] → encoded C 0 (outgoing ls nl (textAfter l (incoming nl text))) = .ok w.file) :=
  C127_text_windows_final hC hE hg hls hl
    (UpdateTrace.calm hC hE hg hl (inc := fun _ => incoming nl) (ends := fun _ => outgoing ls nl) ⟨text, e, hd⟩ hr
      (fun i t o hm => by obtain ⟨rfl, rfl⟩ := he i t o hm; exact ⟨rfl, rfl⟩) hb w hw).1 he hd hr hb hk hk'

/-- C127 for text streams on windows, together with the system that grants the locks. -/
theorem C127_text_windows_waiting_locks (hC : LawfulCodec C) (hE : LawfulEncoder C) (hg : Moderate guess) {u : Uid}
    {inc ends : Sid → Text → Text} {tr : TextTrace C} {l : List (Sid × (Text → Text))} (hl : UpdateTrace tr l)
    {t : TextTogether C} {wls : List Win.Label} {ww : Win.World} {ev : List Event}
    (hj : WinTextJoint WinEditOpenRules guess d u tr t wls ww ev)
    (he : ∀ i t o, (.opened i t, o) ∈ tr → ends i = outgoing t.linesep t.newline ∧ inc i = incoming t.newline)
    (hd : ∃ text e, C.decode C.decInit d true = .ok (text, e)) (hr : ∀ s, RoundTrips C s)
    (hb : ∀ i s o, (.did i (.write s), o) ∈ tr → ∃ b, encoded C 0 (ends i s) = .ok b) :
    WinEditHistory guess d tr t ∧ AllWait tr ∧ UpdatedFile C inc ends d l t.file :=
  C127_text_windows_waiting hC hE hg hl (WinTextJoint.history (H := WinEditRun guess d) ⟨fun h => h, fun h => h⟩ .start
    (fun {tr t it} h hp hg => .item h (by
      cases it with
      | granted i => exact ⟨hp, hg i rfl⟩
      | _ => exact hp)) hj) he hd hr hb

/-! ## Cases -/

theorem WinEditHistory.run {tr : TextTrace C} {w : TextTogether C} (h : WinEditHistory guess d tr w) : WinEditRun guess d tr w := by
  induction h with
  | start => exact .start
  | item _ hp _ ih => exact .item ih hp

-- the hypotheses of `C127_text_windows_waiting` and of `C127_text_windows_waiting_final`; both streams ask while the other has the lock
example : WinEditRun quotient [97, 13, 98] winEdited (replay quotient unopened winEdited) ∧ UpdateTrace winEdited edits ∧
    (∀ i t o, (.opened i t, o) ∈ winEdited → t.linesep = [13, 10] ∧ t.newline = .auto) ∧
    (∀ i s o, (.did i (.write s), o) ∈ winEdited → ∃ b, encoded latin1 0 (outgoing [13, 10] .auto s) = .ok b) ∧
    (replay quotient unopened winEdited).file = [98, 99, 13, 10] := by
  refine ⟨?_, ?_, ?_, ?_, by decide +kernel⟩
  · have := replay_edit (guess := quotient) (d := [97, 13, 98]) winEdited .start (by decide +kernel) winEdit_proper
    exact WinEditHistory.run (by simpa [unopened] using this)
  · have h3 : UpdateTrace winEdit₂ edits := .update (x := [97, 10, 98, 99, 10]) winEdit₁_updates (by
      simp [Within, editSecond, TextItem.stream]) rfl
    exact .look h3 (by simp [Within, editLook, TextItem.stream]) rfl
  · intro i t o h
    simp [winEdited, winEdit₂, winEdit₁, winPair, editFirst, editSecond, editLook] at h
    rcases h with ⟨⟨_, rfl⟩, _⟩ | ⟨⟨_, rfl⟩, _⟩ <;> exact ⟨rfl, rfl⟩
  · intro i s o h
    simp [winEdited, winEdit₂, winEdit₁, winPair, editFirst, editSecond, editLook] at h
    rcases h with ⟨⟨_, rfl⟩, _⟩ | ⟨⟨_, rfl⟩, _⟩
    · exact ⟨[97, 13, 10, 98, 99, 13, 10], rfl⟩
    · exact ⟨[98, 99, 13, 10], rfl⟩

theorem AllWinEdit.open_rules {tr' : TextTrace C} : ∀ {tr : TextTrace C} {t : TextTogether C}, AllWinEdit guess tr t tr' →
    AllRules WinEditOpenRules guess t tr tr' := by
  induction tr' with
  | nil => intro tr t _; trivial
  | cons x tr' ih =>
    obtain ⟨it, o⟩ := x
    intro tr t h
    refine ⟨?_, ih h.2.2⟩
    have := h.1
    cases it with
    | granted i => exact this.1
    | _ => exact this

-- the first update, on the lock system
example : (∃ ls w ev, WinTextJoint WinEditOpenRules quotient [97, 13, 98] (0, 7) winEdit₁ (replay quotient unopened winEdit₁) ls w ev) ∧
    UpdateTrace winEdit₁ (edits.take 1) := by
  refine ⟨?_, winEdit₁_updates⟩
  have e1 : (Win.sane (winBefore 1)).map (fun x => heldOf x.2) = some [⟨1, 0, (0, 7), false, 0, none⟩] := by decide +kernel
  cases hr1 : Win.sane (winBefore 1) with
  | none => rw [hr1] at e1; cases e1
  | some x =>
    rw [hr1] at e1
    simp only [Option.map_some, Option.some.injEq] at e1
    have j0 := WinTextJoint.run (P := WinEditOpenRules (C := latin1)) (guess := quotient) (d := [97, 13, 98]) (u := (0, 7)) rfl .init hr1
    have hp : AllWinEdit quotient [] unopened winEdit₁ := by
      have := winEdit_proper
      simp only [winEdited, winEdit₂, List.append_assoc] at this
      exact this.take
    have j1 := WinTextJoint.items winEdit₁ j0 (by decide +kernel) hp.open_rules (by
      intro i o hm
      simp [winEdit₁, editFirst, winPair] at hm
      obtain ⟨rfl, _⟩ := hm
      intro a ha
      obtain rfl := List.mem_singleton.1 ha
      exact ⟨_, by rw [e1]; exact List.mem_cons_self, rfl, rfl, rfl, by simp [Covers]⟩)
    exact ⟨_, _, _, j1⟩

end Verif.Props
