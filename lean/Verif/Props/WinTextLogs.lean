import Verif.Props.WinTextWaiting

/-!
# C119 for logs: streams that wait need no transfer
-/

set_option autoImplicit false

namespace Verif.Props

open Verif Verif.Spec Verif.Txt

variable {C : Codec} {guess : Nat × Nat → Nat → Nat} {d : Bytes}

/-- A stream that has appended a text. -/
theorem entry_bare (hC : LawfulCodec C) (hE : LawfulEncoder C) (hg : Moderate guess)
    {tr mid : TextTrace C} {i : Sid} {w w' : TextTogether C} {t : Txt C} (hw : TextHistory guess d tr w)
    (hw' : TextHistory guess d (tr ++ (.granted i, .done) :: mid) w') (hmid : Within i mid) (ht : w.txts i = some t)
    {o o' : Out} {s : Text} (hcalls : callsOf i mid = [(.seek .toEnd, o), (.write s, o')]) :
    ∃ u f, w'.txts i = some u ∧ u.buf.raw.data = w'.file ∧ Txt.Ready t.newline t.linesep .random u f ∧ u.Bare := by
  obtain ⟨t₀, u, h1, h2, h3, h4, h5, h6, h7, h8, h9, h10, h11, _⟩ := TextTogether.alone hw mid.length mid w' rfl hw' hmid
  rw [ht] at h1
  cases h1
  have hr := TextTogether.ready_of h3 h6 h7 h8
  rw [h4, h5] at hr
  obtain ⟨Ok, p, t', d₀, pre, post, doc, L, e1, _, e3, e4, e5, e6, e7, e8⟩ :=
    ready_seek hC hE hg hr .toEnd (.inl rfl) [.write s]
  obtain ⟨d₁, pre₁, rfl, a1, c1, q1⟩ := doc_go e5 e6 e7 (.inr ⟨_, e4.writing, trivial⟩)
  obtain ⟨x, k1, k2, k3, _⟩ := a1.writes _ e4.writing trivial
  obtain ⟨rfl, rfl⟩ := List.append_eq_nil_iff.1 q1.symm
  cases c1
  obtain ⟨hout, _, _⟩ := e8.writing _ k2
  rw [hcalls] at h10 h11
  simp only [List.map_cons, List.map_nil] at h10 h11
  rw [show Txt.run guess u [.seek .toEnd, .write s] =
    (_ :: (Txt.run guess t' [.write s]).1, (Txt.run guess t' [.write s]).2) by rw [Txt.run]; rw [e1]] at h10 h11
  exact ⟨_, _, h10, h11.symm, hout.ready, ⟨hout.telling, hout.chars, hout.snapshot⟩⟩

/-- A log is written on windows as on unix. -/
theorem LogTrace.ports {tr : TextTrace C} {l : List (Sid × Text)} (hC : LawfulCodec C) (hE : LawfulEncoder C) (hg : Moderate guess)
    {ends : Sid → Text → Text} (hl : LogTrace tr l) :
      (∀ i t o, (.opened i t, o) ∈ tr → ends i = outgoing t.linesep t.newline) →
      (∀ x ∈ l, ∀ n, ∃ b, encoded C n (ends x.1 x.2) = .ok b) →
      Ports guess d tr ∧ ∀ w, WinEditHistory guess d tr w → LogFile C ends d l w.file ∧ lockers tr = [] := by
  have sure : ∀ {tr : TextTrace C} {l : List (Sid × Text)}, LogTrace tr l → Ports guess d tr →
      (∀ i t o, (.opened i t, o) ∈ tr → ends i = outgoing t.linesep t.newline) →
      (∀ x ∈ l, ∀ n, ∃ b, encoded C n (ends x.1 x.2) = .ok b) → ∀ w, WinEditHistory guess d tr w →
      LogFile C ends d l w.file ∧ lockers tr = [] := by
    intro tr l hl hp he hb w hw
    have := LogTrace.file hC hE hg (LogTrace.ported hl) (ends := ends) (hp w hw).1 (fun i t o h => by
      obtain ⟨t₀, h1, rfl⟩ := mem_opened_ported h
      exact he i t₀ o h1) hb
    rw [lockers_ported] at this
    exact this
  suffices h : (∀ i t o, (.opened i t, o) ∈ tr → ends i = outgoing t.linesep t.newline) →
      (∀ x ∈ l, ∀ n, ∃ b, encoded C n (ends x.1 x.2) = .ok b) → Ports guess d tr from
    fun he hb => ⟨h he hb, sure hl (h he hb) he hb⟩
  induction hl with
  | start =>
    intro _ _ w hw
    generalize hq : ([] : TextTrace C) = q at hw
    cases hw with
    | start => exact ⟨.start, fun i t ht => by cases ht⟩
    | item => simp at hq
  | @other tr l x hl hx ih =>
    intro he hb w hw
    have he' := fun i t o (h : (TextItem.opened i t, o) ∈ tr) => he i t o (List.mem_append_left _ h)
    obtain ⟨w₁, g1, _⟩ := WinEditHistory.last hw
    have hs := (sure hl (ih he' hb) he' hb w₁ g1).2
    refine (ih he' hb).plain (fun hp j e => ?_) w hw
    rw [e] at hp
    have := hp.1
    rw [hs] at this
    cases this
  | @entry tr mid l i s o o' o'' hl hmid hcalls ih =>
    intro he hb
    have hp := ih (fun i t o h => he i t o (by simp [h])) fun x hx => hb x (List.mem_append_left _ hx)
    have h1 := hp.plain (x := (.granted i, .done)) fun _ => nofun
    have h2 := Ports.within (i := i) mid (m := []) hmid (by rw [hcalls]; simp) h1 fun w hw => by
      obtain ⟨w₀, h⟩ := WinEditHistory.prefix hw
      exact ⟨_, (hp w₀ h).1⟩
    exact h2.plain fun _ => nofun

/-- All streams that wait are empty, in a file that is used as a log. -/
theorem LogTrace.calm {tr : TextTrace C} {l : List (Sid × Text)} (hC : LawfulCodec C) (hE : LawfulEncoder C) (hg : Moderate guess)
    {ends : Sid → Text → Text} (hl : LogTrace tr l) :
      (∀ i t o, (.opened i t, o) ∈ tr → ends i = outgoing t.linesep t.newline) →
      (∀ x ∈ l, ∀ n, ∃ b, encoded C n (ends x.1 x.2) = .ok b) →
      ∀ w, WinEditRun guess d tr w → WinEditHistory guess d tr w ∧ Calm tr w := by
  induction hl with
  | start =>
    intro _ _ w hw
    generalize hq : ([] : TextTrace C) = q at hw
    cases hw with
    | start => exact ⟨.start, (fun i t ht => by cases ht), nofun⟩
    | item => simp at hq
  | @other tr l x hl hx ih =>
    intro he hb w hw
    have he' := fun i t o (h : (TextItem.opened i t, o) ∈ tr) => he i t o (List.mem_append_left _ h)
    obtain ⟨w₁, g1, _⟩ := WinEditRun.last hw
    have hs := ((LogTrace.ports hC hE hg hl he' hb).2 w₁ (ih he' hb w₁ g1).1).2
    refine WinEditRun.more hw (ih he' hb) fun hp => ⟨fun i e => ?_, fun i e => ?_⟩
    · rw [e] at hp
      have hp : i ∈ lockers tr := hp
      rw [hs] at hp
      cases hp
    · rw [e] at hp
      have hp : i ∈ lockers tr := hp.1
      rw [hs] at hp
      cases hp
  | @entry tr mid l i s o o' o'' hl hmid hcalls ih =>
    intro he hb w hw
    have he' := fun i t o (h : (TextItem.opened i t, o) ∈ tr) => he i t o (by simp [h])
    have hb' := fun x (hx : x ∈ l) => hb x (List.mem_append_left _ hx)
    have ih := ih he' hb'
    obtain ⟨w₁, h1, h2, h3, h4⟩ := WinEditRun.last hw
    obtain ⟨w₀, h0⟩ := WinEditRun.prefix h1
    obtain ⟨n1, n2⟩ := ih w₀ h0
    obtain ⟨p0, p3⟩ := LogTrace.ports hC hE hg hl he' hb'
    have p1 := (p0 w₀ n1).1
    obtain ⟨m1, m2, m3⟩ := WinEditRun.within (p3 w₀ n1).2 ih mid.length mid rfl hmid w₁ h1
    dsimp only at h2 h3 h4
    have hfull : WinEditHistory guess d (tr ++ (.granted i, .done) :: mid ++ [(.unlock i, o'')]) w := by
      rw [h3, h4]
      exact .item m2 h2 nofun
    refine ⟨hfull, fun j t ht _ => ?_, AllWait.snoc m3.2 nofun⟩
    by_cases e : j = i
    · subst e
      have q1 := ((LogTrace.ports hC hE hg (.entry hl hmid hcalls) he hb).1 w hfull).1
      rw [portedTrace_append, portedTrace_section] at q1
      obtain ⟨w', r1, _, _, r4⟩ := TextHistory.last q1
      obtain ⟨t₁, _, k1, _⟩ := TextTogether.alone p1 _ _ _ rfl r1 hmid.ported
      obtain ⟨u, f, g1, g2, g3, g4⟩ := entry_bare hC hE hg p1 r1 hmid.ported k1 (by rw [callsOf_ported]; exact hcalls)
      exact unlock_vacant g1 g2 g3 g4 r4 ht
    · rw [h4] at ht
      simp only [TextTogether.step] at ht
      rw [on_other e] at ht
      exact m3.1 j t ht (by rw [m1]; simpa using e)

/-- C119: a log that several streams write loses nothing.  A stream that asks for the lock while another holds it needs no transfer, which
the system would refuse; none fails to wait. -/
theorem C119_log_waiting (hC : LawfulCodec C) (hE : LawfulEncoder C) (hg : Moderate guess)
    {ends : Sid → Text → Text} {tr : TextTrace C} {l : List (Sid × Text)} (hl : LogTrace tr l) {w : TextTogether C}
    (hw : WinEditRun guess d tr w) (he : ∀ i t o, (.opened i t, o) ∈ tr → ends i = outgoing t.linesep t.newline)
    (hb : ∀ x ∈ l, ∀ n, ∃ b, encoded C n (ends x.1 x.2) = .ok b) : WinEditHistory guess d tr w ∧ AllWait tr ∧ LogFile C ends d l w.file := by
  obtain ⟨h, h'⟩ := LogTrace.calm hC hE hg hl he hb w hw
  exact ⟨h, h'.2, ((LogTrace.ports hC hE hg hl he hb).2 w h).1⟩

/-- C119: a log, together with the system that grants the locks. -/
theorem C119_log_waiting_locks (hC : LawfulCodec C) (hE : LawfulEncoder C) (hg : Moderate guess) {u : Uid}
    {ends : Sid → Text → Text} {tr : TextTrace C} {l : List (Sid × Text)} (hl : LogTrace tr l)
    {t : TextTogether C} {wls : List Win.Label} {ww : Win.World} {ev : List Event}
    (hj : WinTextJoint WinEditOpenRules guess d u tr t wls ww ev)
    (he : ∀ i t o, (.opened i t, o) ∈ tr → ends i = outgoing t.linesep t.newline)
    (hb : ∀ x ∈ l, ∀ n, ∃ b, encoded C n (ends x.1 x.2) = .ok b) : WinEditHistory guess d tr t ∧ AllWait tr ∧ LogFile C ends d l t.file :=
  C119_log_waiting hC hE hg hl (WinTextJoint.history (H := WinEditRun guess d) ⟨fun h => h, fun h => h⟩ .start
    (fun {tr t it} h hp hg => .item h (by
      cases it with
      | granted i => exact ⟨hp, hg i rfl⟩
      | _ => exact hp)) hj) he hb

/-! ## Cases -/

def winLogged : TextTrace latin1 := winLog ++ (.granted (2, 0), .done) :: logMid ++ [(.unlock (2, 0), .done)]

theorem winLogged_proper : AllWinEdit quotient [] unopened winLogged := winPair_edit _
  ⟨edit_ask (by decide), ask_free _ (by decide), ⟨rfl, by decide⟩, not_asking nofun,
    edit_did (by decide) trivial nofun nofun, not_asking nofun, edit_ask (by decide), ask_ready (by decide +kernel),
    edit_did (by decide) trivial nofun nofun, not_asking nofun, edit_unlock (by decide), not_asking nofun,
    ⟨rfl, by decide⟩, not_asking nofun,
    edit_did (by decide) trivial nofun nofun, not_asking nofun, edit_ask (by decide), ask_ready (by decide +kernel),
    edit_did (by decide) trivial nofun nofun, not_asking nofun, edit_unlock (by decide), not_asking nofun, trivial⟩

theorem winLog_entries : LogTrace winLog [((1, 0), [120, 10])] := by
  have h1 : LogTrace (winPair ++ [(.ask (1, 0), .done)]) [] :=
    .other (tr := winPair) (.other (tr := winPair.take 1) (.other (tr := []) .start (by simp)) (by simp)) (by simp)
  exact LogTrace.entry (mid := [(.did (1, 0) (.seek .toEnd), .cookie (offset 3)), (.ask (2, 0), .done),
    (.did (1, 0) (.write [120, 10]), .num 2)]) h1 (by simp [Within, TextItem.stream]) rfl

-- the hypotheses of `C119_log_waiting`; both streams ask while the other has the lock
example : WinEditRun quotient [97, 13, 98] winLogged (replay quotient unopened winLogged) ∧
    LogTrace winLogged [((1, 0), [120, 10]), ((2, 0), [121])] ∧
    (∀ i t o, (.opened i t, o) ∈ winLogged → outgoing [13, 10] .auto = outgoing t.linesep t.newline) ∧
    (replay quotient unopened winLogged).file = [97, 13, 98, 120, 13, 10, 121] := by
  refine ⟨?_, .entry winLog_entries (by simp [Within, logMid, TextItem.stream]) rfl, ?_, by decide +kernel⟩
  · have := replay_edit (guess := quotient) (d := [97, 13, 98]) winLogged .start (by decide +kernel) winLogged_proper
    exact WinEditHistory.run (by simpa [unopened] using this)
  · intro i t o h
    simp [winLogged, winLog, winPair, logMid] at h
    rcases h with ⟨⟨_, rfl⟩, _⟩ | ⟨⟨_, rfl⟩, _⟩ <;> rfl

-- the first entry, on the lock system
example : (∃ ls w ev, WinTextJoint WinEditOpenRules quotient [97, 13, 98] (0, 7) winLog (replay quotient unopened winLog) ls w ev) ∧
    LogTrace winLog [((1, 0), [120, 10])] := by
  refine ⟨?_, winLog_entries⟩
  have e1 : (Win.sane (winBefore 1)).map (fun x => heldOf x.2) = some [⟨1, 0, (0, 7), false, 0, none⟩] := by decide +kernel
  cases hr1 : Win.sane (winBefore 1) with
  | none => rw [hr1] at e1; cases e1
  | some x =>
    rw [hr1] at e1
    simp only [Option.map_some, Option.some.injEq] at e1
    have j0 := WinTextJoint.run (P := WinEditOpenRules (C := latin1)) (guess := quotient) (d := [97, 13, 98]) (u := (0, 7)) rfl .init hr1
    have hp : AllWinEdit quotient [] unopened winLog := by
      have := winLogged_proper
      simp only [winLogged, List.append_assoc] at this
      exact this.take
    have j1 := WinTextJoint.items winLog j0 (by decide +kernel) hp.open_rules (by
      intro i o hm
      simp [winLog, winPair] at hm
      obtain ⟨rfl, _⟩ := hm
      intro a ha
      obtain rfl := List.mem_singleton.1 ha
      exact ⟨_, by rw [e1]; exact List.mem_cons_self, rfl, rfl, rfl, by simp [Covers]⟩)
    exact ⟨_, _, _, j1⟩

end Verif.Props
