import Verif.Spec.Following
import Verif.Props.Rotation

/-!
# C126: reading a log while others write to it
-/

set_option autoImplicit false

namespace Verif.Props

open Verif Verif.Spec

theorem followed_snoc (i : Sid) (tr : List (Item × StreamOut)) (e : Item × StreamOut) :
    followed i (tr ++ [e]) = (followed i tr).next i e := by simp [followed]

theorem logEntries_snoc (tr : List (Item × StreamOut)) (e : Item × StreamOut) : logEntries (tr ++ [e]) = logEntries tr ++ accepted e := by
  simp [logEntries]

theorem prefix_more {l g x : Bytes} {n : Nat} (h : g <+: l.drop n) (hx : x <+: l.drop (n + g.length)) : g ++ x <+: l.drop n := by
  obtain ⟨t, ht⟩ := h
  rw [← List.drop_drop, ← ht, List.drop_left] at hx
  obtain ⟨t', rfl⟩ := hx
  exact ⟨t', by rw [← ht, List.append_assoc]⟩

theorem prefix_grows {l g x : Bytes} {n : Nat} (h : g <+: l.drop n) : g <+: (l ++ x).drop n := by
  rw [List.drop_append]
  exact h.trans (List.prefix_append _ _)

theorem follows_rest {l g x : Bytes} {n : Nat} (h : g <+: l.drop n) (hx : x = l.drop (n + g.length)) : g ++ x = l.drop n := by
  obtain ⟨t, ht⟩ := h
  rw [← List.drop_drop, ← ht, List.drop_left] at hx
  rw [hx, ht]

/-- The array is the log; streams either append or read, and the latter are where they stopped reading. -/
structure Following (d : Bytes) (tr : List (Item × StreamOut)) (s : Pool) : Prop where
  data : s.data = d ++ logEntries tr
  got : ∀ i, (followed i tr).got <+: s.data.drop (followed i tr).start
  kinds : ∀ i ∈ openIn (tr.map Prod.fst), (s.append i = true ∧ s.kind i = .writer) ∨
    (s.append i = false ∧ s.kind i = .reader ∧ s.pos i = (followed i tr).start + (followed i tr).got.length)
  seen : ∀ i ∈ openIn (tr.map Prod.fst), ∃ b, Item.opened i b ∈ tr.map Prod.fst ∧ b.kind = s.kind i

set_option linter.unnecessarySimpa false in
/-- What one call on a stream does to the reader and to the array. -/
theorem Following.did {d : Bytes} {tr : List (Item × StreamOut)} {s s' : Pool} (hf : Following d tr s) {j : Sid} {op : StreamOp}
    {out : StreamOut} (hj : j ∈ openIn (tr.map Prod.fst)) (hit : Follows (.did j op)) (hst : s.Step (.did j op) out s') :
    Following d (tr ++ [(.did j op, out)]) s' := by
  obtain ⟨log, f, h1, h2, rfl⟩ := hst
  have other : ∀ i, i ≠ j → (followed i (tr ++ [(.did j op, out)])) = followed i tr := by
    intro i hi
    have hi' : ¬ j = i := fun e => hi e.symm
    rw [followed_snoc]
    unfold Follower.next
    split <;> first | rfl | (rename_i e; cases e) <;> simp [hi']
  -- what is needed of the stream itself
  suffices hs : f.file.data = s.data ++ accepted (.did j op, out) ∧
      ((followed j (tr ++ [(.did j op, out)])).got <+: f.file.data.drop (followed j (tr ++ [(.did j op, out)])).start) ∧
      (s.append j = false → f.file.pos = (followed j (tr ++ [(.did j op, out)])).start +
        (followed j (tr ++ [(.did j op, out)])).got.length) by
    obtain ⟨g1, g2, g3⟩ := hs
    have stay : ∀ i ∈ openIn ((tr ++ [(Item.did j op, out)]).map Prod.fst), i ∈ openIn (tr.map Prod.fst) := by
      intro i hi
      rw [List.map_append] at hi
      have : i ∈ openIn (tr.map Prod.fst ++ [Item.did j op]) := hi
      rw [openIn_snoc] at this; exact this
    refine ⟨by rw [logEntries_snoc, ← List.append_assoc, ← hf.data]; exact g1, fun i => ?_, fun i hi => ?_, fun i hi => ?_⟩
    · by_cases hij : i = j
      · subst hij; exact g2
      · rw [other i hij]
        show _ <+: f.file.data.drop _
        rw [g1]
        exact prefix_grows (hf.got i)
    · replace hi := stay i hi
      rcases hf.kinds i hi with hk | ⟨k1, k2, k3⟩
      · exact .inl hk
      · refine .inr ⟨k1, k2, ?_⟩
        by_cases hij : i = j
        · subst hij
          simp only [Pool.after, if_true]
          exact g3 k1
        · rw [other i hij]
          simp only [Pool.after, if_neg hij]
          exact k3
    · obtain ⟨b, m1, m2⟩ := hf.seen i (stay i hi)
      exact ⟨b, by rw [List.map_append]; exact List.mem_append_left _ m1, m2⟩
  have hg := hf.got j
  rw [followed_snoc]
  rcases hf.kinds j hj with ⟨k1, k2⟩ | ⟨k1, k2, k3⟩
  · -- a stream that appends
    have h1 := h1 k1
    rw [k2] at h1
    refine ⟨?_, ?_, fun h => by rw [k1] at h; cases h⟩
    all_goals
      cases op with
      | write x =>
        obtain ⟨rfl, m1, m2⟩ := h1
        by_cases hx : x = []
        · rw [m1 hx]; simpa [accepted, Follower.next, hx, Pool.view] using hg
        · rw [(m2 hx).1]
          first
          | rfl
          | exact prefix_grows hg
      | tell => obtain ⟨⟨rfl, m⟩, _⟩ := h1; rw [m]; simpa [accepted, Follower.next, Pool.view] using hg
      | truncate a => exact hit.elim
      | lock o => exact hit.elim
      | unlock => exact hit.elim
      | read n => obtain ⟨⟨rfl, m⟩, _⟩ := h1; rw [m]; simpa [accepted, Follower.next, Pool.view] using hg
      | read1 n => obtain ⟨⟨rfl, m⟩, _⟩ := h1; rw [m]; simpa [accepted, Follower.next, Pool.view] using hg
      | peek n => obtain ⟨⟨rfl, m⟩, _⟩ := h1; rw [m]; simpa [accepted, Follower.next, Pool.view] using hg
      | readline n =>
        obtain ⟨h1, _⟩ := h1
        simp only [Allowed] at h1
        split at h1
        · obtain ⟨rfl, m⟩ := h1; rw [m]; simpa [accepted, Follower.next, Pool.view] using hg
        · obtain ⟨rfl, m⟩ := h1; rw [m]; simpa [accepted, Follower.next, Pool.view] using hg
      | seek o w =>
        obtain ⟨h1, _⟩ := h1
        simp only [Allowed] at h1
        split at h1
        · obtain ⟨rfl, m⟩ := h1; rw [m]; simp [accepted, Follower.next, Pool.view]
        · obtain ⟨rfl, m⟩ := h1; rw [m]; simpa [accepted, Follower.next, Pool.view] using hg
      | flush => obtain ⟨⟨rfl, m⟩, _⟩ := h1; rw [m]; simpa [accepted, Follower.next, Pool.view] using hg
      | size => obtain ⟨⟨rfl, m⟩, _⟩ := h1; rw [m]; simpa [accepted, Follower.next, Pool.view] using hg
  · -- a stream that reads
    obtain ⟨h2, _⟩ := h2 k1
    rw [k2] at h2
    have hr : (s.view j log).file.rest = s.data.drop ((followed j tr).start + (followed j tr).got.length) := by
      rw [← k3]; rfl
    have hpos : (s.view j log).file.pos = (followed j tr).start + (followed j tr).got.length := k3
    have hdata : (s.view j log).file.data = s.data := rfl
    generalize (s.view j log).file = v at h2 hr hpos hdata
    have more : ∀ x, x <+: v.rest → (followed j tr).got ++ x <+: s.data.drop (followed j tr).start :=
      fun x hx => prefix_more hg (by rw [← hr]; exact hx)
    have same : f.file = v → accepted (.did j op, out) = [] → Follower.next j (followed j tr) (.did j op, out) = followed j tr →
        f.file.data = s.data ++ accepted (.did j op, out) ∧
        (Follower.next j (followed j tr) (.did j op, out)).got <+:
          f.file.data.drop (Follower.next j (followed j tr) (.did j op, out)).start ∧
        (s.append j = false → f.file.pos = (Follower.next j (followed j tr) (.did j op, out)).start +
          (Follower.next j (followed j tr) (.did j op, out)).got.length) := by
      intro e1 e2 e3
      rw [e1, e2, e3, hdata, List.append_nil]
      exact ⟨rfl, hg, fun _ => hpos⟩
    have reads : ∀ x, x <+: v.rest → f.file.data = s.data → f.file.pos = v.pos + x.length → accepted (.did j op, out) = [] →
        Follower.next j (followed j tr) (.did j op, out) = ⟨(followed j tr).start, (followed j tr).got ++ x⟩ →
        f.file.data = s.data ++ accepted (.did j op, out) ∧
        (Follower.next j (followed j tr) (.did j op, out)).got <+:
          f.file.data.drop (Follower.next j (followed j tr) (.did j op, out)).start ∧
        (s.append j = false → f.file.pos = (Follower.next j (followed j tr) (.did j op, out)).start +
          (Follower.next j (followed j tr) (.did j op, out)).got.length) := by
      intro x hx e1 e2 e3 e4
      rw [e1, e2, e3, e4, List.append_nil]
      exact ⟨rfl, more x hx, fun _ => by simp [hpos, Nat.add_assoc]⟩
    cases op with
    | tell => obtain ⟨rfl, m⟩ := h2; exact same m rfl rfl
    | truncate a => exact hit.elim
    | lock o => exact hit.elim
    | unlock => exact hit.elim
    | write x => obtain ⟨rfl, m⟩ := h2; exact same m rfl rfl
    | flush => obtain ⟨rfl, m⟩ := h2; exact same m rfl rfl
    | size => obtain ⟨rfl, m⟩ := h2; exact same m rfl rfl
    | peek n =>
      obtain ⟨x, _, _, rfl, m⟩ := h2
      rw [m]
      exact ⟨by simp [accepted, hdata], by simpa [Follower.next, hdata] using hg, fun _ => hpos⟩
    | read n =>
      have all : out = .bytes v.rest ∧ f.file = { v with pos := v.pos + v.rest.length, ahead := true } → _ := fun h =>
        reads v.rest (List.prefix_refl _) (by rw [h.2]; exact hdata) (by rw [h.2]) (by rw [h.1]; rfl) (by rw [h.1]; simp [Follower.next])
      cases n with
      | none => exact all h2
      | some z =>
        simp only [Allowed, reduceCtorEq, if_false] at h2
        split at h2
        · obtain ⟨rfl, m⟩ := h2; exact same m rfl rfl
        · split at h2
          · exact all h2
          · obtain ⟨rfl, m⟩ := h2
            exact reads _ (List.take_prefix _ _) (by rw [m]; exact hdata) (by rw [m]) rfl (by simp [Follower.next])
    | read1 n =>
      simp only [Allowed, reduceCtorEq, if_false] at h2
      split at h2
      · obtain ⟨rfl, m⟩ := h2; exact same m rfl (by simp [Follower.next])
      · obtain ⟨x, hx, _, _, rfl, m⟩ := h2
        exact reads x hx (by rw [m]; exact hdata) (by rw [m]) rfl (by simp [Follower.next])
    | readline n =>
      simp only [Allowed, reduceCtorEq, if_false] at h2
      split at h2
      · obtain ⟨rfl, m⟩ := h2; exact same m rfl (by simp [Follower.next])
      · obtain ⟨x, hx, rfl, m⟩ := h2
        exact reads x hx.isPrefix (by rw [m]; exact hdata) (by rw [m]) rfl (by simp [Follower.next])
    | seek o w =>
      simp only [Allowed] at h2
      split at h2
      · obtain ⟨rfl, m⟩ := h2; rw [m]; simp [accepted, Follower.next, hdata]
      · obtain ⟨rfl, m⟩ := h2; exact same m rfl rfl

theorem Pooled.following {d : Bytes} {tr : List (Item × StreamOut)} {s : Pool} (hp : Pooled (.start d) tr s)
    (hu : Uses (tr.map Prod.fst)) (ho : ∀ it ∈ tr.map Prod.fst, Follows it) : Following d tr s := by
  generalize hs : Pool.start d = s₀ at hp
  induction hp with
  | nil =>
    subst hs
    exact ⟨by simp [Pool.start, logEntries], fun i => List.nil_prefix, by simp [openIn], by simp [openIn]⟩
  | @snoc s' s'' tr it out _ hst ih =>
    have em : (tr ++ [(it, out)]).map Prod.fst = tr.map Prod.fst ++ [it] := by simp
    rw [em] at hu ho
    have hf := ih hu.prefix (fun it hi => ho it (List.mem_append_left _ hi))
    have hit := ho it (by simp)
    -- items that leave the array, the readers and the positions
    have idle : s''.data = s'.data → s''.append = s'.append → s''.kind = s'.kind → (∀ i, s''.pos i = s'.pos i) →
        accepted (it, out) = [] → (∀ i c, Follower.next i c (it, out) = c) →
        (∀ i ∈ openIn (tr.map Prod.fst ++ [it]), i ∈ openIn (tr.map Prod.fst)) → Following d (tr ++ [(it, out)]) s'' := by
      intro e1 e2 e3 e4 e5 e6 e7
      refine ⟨by rw [logEntries_snoc, e5, List.append_nil, e1]; exact hf.data, fun i => ?_, fun i hi => ?_, fun i hi => ?_⟩
      · rw [followed_snoc, e6, e1]; exact hf.got i
      · rw [em] at hi
        rw [followed_snoc, e6, e2, e3, e4]
        exact hf.kinds i (e7 i hi)
      · rw [em] at hi
        obtain ⟨b, m1, m2⟩ := hf.seen i (e7 i hi)
        exact ⟨b, by rw [em]; exact List.mem_append_left _ m1, by rw [e3]; exact m2⟩
    have opens : (∀ S, openStep S it = S) → ∀ i ∈ openIn (tr.map Prod.fst ++ [it]), i ∈ openIn (tr.map Prod.fst) :=
      fun h i hi => by rw [openIn_snoc, h] at hi; exact hi
    have at_ : ∀ j i, (s'.after j ⟨⟨s'.data, s'.pos j, false, []⟩, false⟩).pos i = s'.pos i := by
      intro j i
      simp only [Pool.after]
      split
      · rename_i e; rw [e]
      · rfl
    cases it with
    | did j op => exact Following.did hf (hu.opened (tr.map Prod.fst) j op [] rfl) hit hst
    | opened j b =>
      obtain ⟨_, rfl⟩ := hst
      have hb := hu.kinds j b (by simp)
      have other : ∀ i, i ≠ j → followed i (tr ++ [(.opened j b, out)]) = followed i tr := by
        intro i hi
        rw [followed_snoc]
        have hi' : ¬ j = i := fun e => hi e.symm
        simp only [Follower.next, if_neg hi']
      have own : followed j (tr ++ [(.opened j b, out)]) = ⟨b.raw.pos, []⟩ := by rw [followed_snoc]; simp [Follower.next]
      refine ⟨by rw [logEntries_snoc]; simpa [accepted] using hf.data, fun i => ?_, fun i hi => ?_, fun i hi => ?_⟩
      · by_cases hij : i = j
        · subst hij; rw [own]; exact List.nil_prefix
        · rw [other i hij]; exact hf.got i
      · dsimp only
        by_cases hij : i = j
        · subst hij
          simp only [if_true, own, List.length_nil, Nat.add_zero, and_true]
          rcases hit with hit | hit
          · exact .inl hit
          · refine .inr ⟨?_, hit⟩
            cases ha : b.raw.append with
            | false => rfl
            | true => exact absurd hit (hb ha)
        · rw [other i hij]
          simp only [if_neg hij]
          rw [em, openIn_snoc] at hi
          exact hf.kinds i ((List.mem_append.1 hi).resolve_right (by simpa using hij))
      · dsimp only
        by_cases hij : i = j
        · subst hij
          exact ⟨b, by simp, by simp⟩
        · rw [em, openIn_snoc] at hi
          obtain ⟨b', m1, m2⟩ := hf.seen i ((List.mem_append.1 hi).resolve_right (by simpa using hij))
          exact ⟨b', by rw [em]; exact List.mem_append_left _ m1, by simp only [if_neg hij]; exact m2⟩
    | ask j => obtain ⟨_, rfl⟩ := hst; exact idle rfl rfl rfl (at_ j) rfl (fun _ _ => rfl) (opens fun _ => rfl)
    | granted j sh => obtain ⟨_, rfl⟩ := hst; exact idle rfl rfl rfl (at_ j) rfl (fun _ _ => rfl) (opens fun _ => rfl)
    | unlock j => obtain ⟨_, rfl⟩ := hst; exact idle rfl rfl rfl (at_ j) rfl (fun _ _ => rfl) (opens fun _ => rfl)
    | exit j => obtain ⟨_, rfl⟩ := hst; exact idle rfl rfl rfl (fun _ => rfl) rfl (fun _ _ => rfl) (opens fun _ => rfl)
    | close j =>
      obtain ⟨_, rfl⟩ := hst
      exact idle rfl rfl rfl (fun _ => rfl) rfl (fun _ _ => rfl) (fun i hi => by
        rw [openIn_snoc] at hi; exact (List.mem_filter.1 hi).1)
    | gone p =>
      obtain ⟨_, rfl⟩ := hst
      exact idle rfl rfl rfl (fun _ => rfl) rfl (fun _ _ => rfl) (fun i hi => by
        rw [openIn_snoc] at hi; exact (List.mem_filter.1 hi).1)

/-- The history is one of an array, and of streams that were opened before they were used. -/
def Shares (d : Bytes) (h : List Item) : Prop :=
  Uses h ∧ ∃ s, Pooled (.start d) ((beforehand d).play h).1 s ∧ ((∀ i, (i, false) ∉ holding h) → ((beforehand d).play h).2.file = s.data)

/-- None of these calls is one that the code gets wrong. -/
theorem follows_safe {d : Bytes} {tr : List (Item × StreamOut)} {s : Pool} (hf : Following d tr s) {i : Sid} {op : StreamOp}
    (hi : i ∈ openIn (tr.map Prod.fst)) (ht : op = .tell → ∀ b, Item.opened i b ∈ tr.map Prod.fst → b.kind = .reader) :
    ¬ s.Unsafe (.did i op) := by
  have hk : s.kind i ≠ .random := by
    rcases hf.kinds i hi with ⟨_, k⟩ | ⟨_, k, _⟩ <;> rw [k] <;> nofun
  intro hu
  rcases hu with ⟨ha, hu | ⟨_, e | ⟨hr, _⟩⟩⟩ | ⟨_, hu⟩
  · exact hk (Unsafe.random hu)
  · obtain ⟨b, m1, m2⟩ := hf.seen i hi
    rcases hf.kinds i hi with ⟨_, k⟩ | ⟨k, _⟩
    · exact absurd ((m2.symm.trans (ht e b m1)).symm.trans k) nofun
    · rw [ha] at k; cases k
  · exact hk hr
  · exact hk (Unsafe.random hu)

theorem DisciplinedAny.shares {h : List Item} (hd : DisciplinedAny h) (d : Bytes) (hp : ∀ it ∈ h, Follows it) (ht : ReadersTell h) :
    Shares d h := by
  have hu := DisciplinedAny.uses hd
  refine ⟨hu, ?_⟩
  obtain ⟨pre, post, s, rfl, e1, e2, e3⟩ := C123_serial_partial hd d
  rcases e3 with rfl | ⟨it, rest, rfl, e3⟩
  · rw [List.append_nil]; exact ⟨s, e1, e2⟩
  · have hf := Pooled.following e1 (by rw [play_items]; exact hu.prefix)
      (by rw [play_items]; exact fun it hi => hp it (List.mem_append_left _ hi))
    cases it with
    | did i op =>
      refine absurd e3 (follows_safe hf (by rw [play_items]; exact hu.opened pre i op rest rfl) fun e b hb => ?_)
      subst e
      rw [play_items] at hb
      exact ht i b (by simp) (List.mem_append_left _ hb)
    | _ => exact e3.elim

theorem WinDisciplinedAny.shares {h : List Item} (hd : WinDisciplinedAny h) (d : Bytes) (hp : ∀ it ∈ h, Follows it)
    (ht : ReadersTell h) : Shares d h := by
  have hu := WinDisciplinedAny.uses hd
  refine ⟨hu, ?_⟩
  obtain ⟨pre, post, s, rfl, e1, e2, e3⟩ := C123_windows_partial hd d
  rcases e3 with rfl | ⟨it, rest, rfl, e3⟩
  · rw [List.append_nil]; exact ⟨s, e1, e2⟩
  · have hf := Pooled.following e1 (by rw [play_items]; exact hu.prefix)
      (by rw [play_items]; exact fun it hi => hp it (List.mem_append_left _ hi))
    cases it with
    | did i op =>
      rcases e3 with e3 | e3
      · refine absurd e3 (follows_safe hf (by rw [play_items]; exact hu.opened pre i op rest rfl) fun e b hb => ?_)
        subst e
        rw [play_items] at hb
        exact ht i b (by simp) (List.mem_append_left _ hb)
      · have hit := hp (.did i op) (by simp)
        cases op with
        | truncate a => exact hit.elim
        | _ => exact e3.elim
    | _ => exact e3.elim

/-- What C126 says of a history: what each stream has read since it was opened or moved is what the log, that is the old content and all
that was written, in the order of the calls, has from there on; and when nobody holds an exclusive lock the file is the log. -/
def FollowsLog (d : Bytes) (h : List Item) : Prop :=
  (∀ i, (followed i ((beforehand d).play h).1).got <+:
      (d ++ logEntries ((beforehand d).play h).1).drop (followed i ((beforehand d).play h).1).start) ∧
    ((∀ i, (i, false) ∉ holding h) → ((beforehand d).play h).2.file = d ++ logEntries ((beforehand d).play h).1)

theorem Shares.follows {h : List Item} {d : Bytes} (hs : Shares d h) (hp : ∀ it ∈ h, Follows it) : FollowsLog d h := by
  obtain ⟨hu, s, h1, h2⟩ := hs
  have hf := Pooled.following h1 (by rw [play_items]; exact hu) (by rw [play_items]; exact hp)
  exact ⟨fun i => by rw [← hf.data]; exact hf.got i, fun hn => (h2 hn).trans hf.data⟩

/-- The state before the last call, and the call. -/
theorem Shares.last {h : List Item} {d : Bytes} {i : Sid} {op : StreamOp} (hs : Shares d (h ++ [Item.did i op]))
    (hp : ∀ it ∈ h ++ [Item.did i op], Follows it) :
    ∃ s s', Following d ((beforehand d).play h).1 s ∧ i ∈ openIn (((beforehand d).play h).1.map Prod.fst) ∧
      s.Step (Item.did i op) (((beforehand d).play h).2.step (Item.did i op)).1 s' := by
  obtain ⟨hu, s', h1, _⟩ := hs
  rw [Together.play_snoc] at h1
  obtain ⟨s, h1, h2⟩ := Pooled.last h1
  refine ⟨s, s', Pooled.following h1 (by rw [play_items]; exact hu.prefix)
    (by rw [play_items]; exact fun it hi => hp it (List.mem_append_left _ hi)), ?_, h2⟩
  rw [play_items]
  exact hu.opened h i op [] rfl

theorem Shares.caughtUp {h : List Item} {d : Bytes} {i : Sid} {op : StreamOp} {x : Bytes} (hs : Shares d (h ++ [Item.did i op]))
    (hp : ∀ it ∈ h ++ [Item.did i op], Follows it) (ho : (((beforehand d).play h).2.step (Item.did i op)).1 = .bytes x) (hx : CaughtUp op x) :
    (followed i ((beforehand d).play (h ++ [Item.did i op])).1).got =
      (d ++ logEntries ((beforehand d).play (h ++ [Item.did i op])).1).drop (followed i ((beforehand d).play (h ++ [Item.did i op])).1).start := by
  obtain ⟨s, s', hf, hi, hst⟩ := Shares.last hs hp
  rw [Together.play_snoc, followed_snoc, logEntries_snoc, ho]
  rw [ho] at hst
  have ha : accepted (Item.did i op, StreamOut.bytes x) = [] := by cases op <;> rfl
  rw [ha, List.append_nil, ← hf.data]
  have hn : Follower.next i (followed i ((beforehand d).play h).1) (.did i op, .bytes x) =
      ⟨(followed i ((beforehand d).play h).1).start, (followed i ((beforehand d).play h).1).got ++ x⟩ := by
    cases op <;> first | exact hx.elim | simp [Follower.next]
  rw [hn]
  refine follows_rest (hf.got i) ?_
  obtain ⟨log, f, h1, h2, rfl⟩ := hst
  rcases hf.kinds i hi with ⟨k1, k2⟩ | ⟨k1, k2, k3⟩
  · exfalso
    have h1 := h1 k1
    rw [k2] at h1
    cases op with
    | read n => obtain ⟨⟨e, _⟩, _⟩ := h1; cases e
    | read1 n => obtain ⟨⟨e, _⟩, _⟩ := h1; cases e
    | readline n =>
      obtain ⟨h1, _⟩ := h1
      simp only [Allowed, if_neg hx.1, if_true] at h1
      cases h1.1
    | _ => exact hx.elim
  · obtain ⟨h2, _⟩ := h2 k1
    rw [k2] at h2
    have hr : (s.view i log).file.rest = s.data.drop ((followed i ((beforehand d).play h).1).start +
        (followed i ((beforehand d).play h).1).got.length) := by rw [← k3]; rfl
    rw [← hr]
    cases op with
    | read n =>
      cases n with
      | none => obtain ⟨e, _⟩ := h2; injection e
      | some z =>
        simp only [Allowed, reduceCtorEq, if_false] at h2
        split at h2
        · cases h2.1
        · rename_i h0
          split at h2
          · obtain ⟨e, _⟩ := h2; injection e
          · rename_i h1'
            rcases hx with hx | ⟨h3, rfl⟩
            · exact absurd hx h1'
            · obtain ⟨e, _⟩ := h2
              injection e with e
              have := List.take_eq_nil_iff.1 e.symm
              rcases this with e | e
              · omega
              · exact e.symm
    | read1 n =>
      obtain ⟨h3, rfl⟩ := hx
      simp only [Allowed, reduceCtorEq, if_false, if_neg h3] at h2
      obtain ⟨y, _, h4, _, e, _⟩ := h2
      injection e with e
      exact (h4 e.symm).symm
    | readline n =>
      obtain ⟨h3, rfl⟩ := hx
      simp only [Allowed, reduceCtorEq, if_false, if_neg h3] at h2
      obtain ⟨y, h4, e, _⟩ := h2
      injection e with e
      subst e
      rcases h4.stop with e | e | ⟨e1, e2⟩
      · simp at e
      · exact e
      · simp at e2; omega
    | _ => exact hx.elim

theorem Shares.tells {h : List Item} {d : Bytes} {i : Sid} (hs : Shares d (h ++ [Item.did i .tell]))
    (hp : ∀ it ∈ h ++ [Item.did i .tell], Follows it) (ht : ReadersTell (h ++ [Item.did i .tell])) :
    (((beforehand d).play h).2.step (Item.did i .tell)).1 =
      .num ((followed i ((beforehand d).play h).1).start + (followed i ((beforehand d).play h).1).got.length) := by
  obtain ⟨s, s', hf, hi, hst⟩ := Shares.last hs hp
  obtain ⟨log, f, h1, h2, rfl⟩ := hst
  rcases hf.kinds i hi with ⟨k1, k2⟩ | ⟨k1, k2, k3⟩
  · obtain ⟨b, m1, m2⟩ := hf.seen i hi
    rw [play_items] at m1
    have := ht i b (by simp) (List.mem_append_left _ m1)
    exact absurd ((m2.symm.trans this).symm.trans k2) nofun
  · obtain ⟨⟨e, _⟩, _⟩ := h2 k1
    rw [e, ← k3]
    rfl

theorem Shares.served {h : List Item} {d : Bytes} {i : Sid} {op : StreamOp} (hs : Shares d (h ++ [Item.did i op]))
    (hp : ∀ it ∈ h ++ [Item.did i op], Follows it) : Served h i op (((beforehand d).play h).2.step (Item.did i op)).1 := by
  obtain ⟨s, s', hf, hi, hst⟩ := Shares.last hs hp
  generalize (((beforehand d).play h).2.step (Item.did i op)).1 = out at hst
  obtain ⟨log, f, h1, h2, rfl⟩ := hst
  obtain ⟨b, m1, m2⟩ := hf.seen i hi
  rw [play_items] at m1
  refine ⟨fun y e hb => ?_, fun hr hb => ?_⟩
  · subst e
    rcases hf.kinds i hi with ⟨k1, _⟩ | ⟨_, k2, _⟩
    · exact (h1 k1).1
    · exact absurd ((m2.symm.trans (hb b m1)).symm.trans k2) nofun
  · rcases hf.kinds i hi with ⟨_, k2⟩ | ⟨k1, k2, _⟩
    · exact absurd ((m2.symm.trans (hb b m1)).symm.trans k2) nofun
    · obtain ⟨h2, _⟩ := h2 k1
      rw [k2] at h2
      cases op with
      | read n =>
        cases n with
        | none => exact ⟨_, h2.1⟩
        | some z =>
          have := hr z rfl
          simp only [Allowed, reduceCtorEq, if_false, if_neg (show ¬ z < -1 by omega)] at h2
          split at h2
          · exact ⟨_, h2.1⟩
          · exact ⟨_, h2.1⟩
      | read1 n =>
        simp only [Allowed, reduceCtorEq, if_false] at h2
        split at h2
        · exact ⟨_, h2.1⟩
        · obtain ⟨x, _, _, _, e, _⟩ := h2; exact ⟨x, e⟩
      | readline n =>
        simp only [Allowed, reduceCtorEq, if_false] at h2
        split at h2
        · exact ⟨_, h2.1⟩
        · obtain ⟨x, _, e, _⟩ := h2; exact ⟨x, e⟩
      | _ => exact hr.elim

theorem EndsLines.drop {x : Bytes} (h : EndsLines x) (n : Nat) : EndsLines (x.drop n) := by
  by_cases hn : n < x.length
  · rcases h with h | h
    · simp [h] at hn
    · right; rw [List.getLast?_drop, if_neg (by omega), h]
  · left; simp; omega

theorem EndsLines.append {x y : Bytes} (hx : EndsLines x) (hy : EndsLines y) : EndsLines (x ++ y) := by
  rcases hy with rfl | hy
  · rw [List.append_nil]; exact hx
  · right; rw [List.getLast?_append, hy]; rfl

theorem EndsLines.logEntries {d : Bytes} (hd : EndsLines d) {tr : List (Item × StreamOut)}
    (h : ∀ i x out, (Item.did i (.write x), out) ∈ tr → EndsLines x) : EndsLines (d ++ logEntries tr) := by
  induction tr generalizing d with
  | nil => simpa [Spec.logEntries] using hd
  | cons e tr ih =>
    have : d ++ Spec.logEntries (e :: tr) = (d ++ accepted e) ++ Spec.logEntries tr := by simp [Spec.logEntries]
    rw [this]
    refine ih (EndsLines.append hd ?_) fun i x out hm => h i x out (List.mem_cons_of_mem _ hm)
    unfold accepted
    split
    · exact h _ _ _ List.mem_cons_self
    · exact .inl rfl

theorem Shares.lines {h : List Item} {d : Bytes} {i : Sid} {n : Int} {x : Bytes} (hs : Shares d (h ++ [Item.did i (.readline n)]))
    (hp : ∀ it ∈ h ++ [Item.did i (.readline n)], Follows it) (hn : n < 0) (hd : EndsLines d)
    (hw : ∀ j y, Item.did j (.write y) ∈ h → EndsLines y)
    (ho : (((beforehand d).play h).2.step (Item.did i (.readline n))).1 = .bytes x) :
    x = [] ∨ x.getLast? = some 10 ∧ (10 : Byte) ∉ x.dropLast := by
  obtain ⟨s, s', hf, hi, hst⟩ := Shares.last hs hp
  rw [ho] at hst
  obtain ⟨log, f, h1, h2, rfl⟩ := hst
  rcases hf.kinds i hi with ⟨k1, k2⟩ | ⟨k1, k2, k3⟩
  · obtain ⟨h1, _⟩ := h1 k1
    rw [k2] at h1
    simp only [Allowed, if_neg (show n ≠ 0 by omega), if_true] at h1
    cases h1.1
  · obtain ⟨h2, _⟩ := h2 k1
    rw [k2] at h2
    simp only [Allowed, reduceCtorEq, if_false, if_neg (show n ≠ 0 by omega)] at h2
    obtain ⟨y, h4, e, _⟩ := h2
    injection e with e
    subst e
    rcases h4.stop with e | e | ⟨e1, e2⟩
    · exact .inr ⟨e, h4.single⟩
    · have : EndsLines (s.data.drop (s.pos i)) := by
        rw [hf.data]
        refine EndsLines.drop (EndsLines.logEntries hd fun j y out hm => hw j y ?_) _
        rw [← play_items (beforehand d) h]
        exact List.mem_map_of_mem hm
      rw [← show x = s.data.drop (s.pos i) from e] at this
      exact this.imp id fun g => ⟨g, h4.single⟩
    · omega

/-- C126.  Any number of processes write to a log in append mode, others read it, each in its critical sections; readers may share
their locks.  What a reader gets, in all its critical sections together, is the log from the place where it began: nothing is lost,
repeated or out of order, whatever it had in its buffer when others wrote. -/
theorem C126_follow {h : List Item} (hd : DisciplinedAny h) (d : Bytes) (hp : ∀ it ∈ h, Follows it)
    (ht : ReadersTell h) : FollowsLog d h :=
  Shares.follows (DisciplinedAny.shares hd d hp ht) hp

/-- C126: after a `read()`, or a call that asked for bytes and got none, a reader has all that was written until then. -/
theorem C126_caught_up {h : List Item} {i : Sid} {op : StreamOp} {x : Bytes} (hd : DisciplinedAny (h ++ [Item.did i op])) (d : Bytes)
    (hp : ∀ it ∈ h ++ [Item.did i op], Follows it) (ht : ReadersTell (h ++ [Item.did i op]))
    (ho : (((beforehand d).play h).2.step (Item.did i op)).1 = .bytes x) (hx : CaughtUp op x) :
    (followed i ((beforehand d).play (h ++ [Item.did i op])).1).got =
      (d ++ logEntries ((beforehand d).play (h ++ [Item.did i op])).1).drop (followed i ((beforehand d).play (h ++ [Item.did i op])).1).start :=
  Shares.caughtUp (DisciplinedAny.shares hd d hp ht) hp ho hx

/-- C126: if whole lines are written, then whole lines are read. -/
theorem C126_lines {h : List Item} {i : Sid} {n : Int} {x : Bytes} (hd : DisciplinedAny (h ++ [Item.did i (.readline n)])) (d : Bytes)
    (hp : ∀ it ∈ h ++ [Item.did i (.readline n)], Follows it)
    (ht : ReadersTell (h ++ [Item.did i (.readline n)])) (hn : n < 0) (hl : EndsLines d)
    (hw : ∀ j y, Item.did j (.write y) ∈ h → EndsLines y)
    (ho : (((beforehand d).play h).2.step (Item.did i (.readline n))).1 = .bytes x) :
    x = [] ∨ x.getLast? = some 10 ∧ (10 : Byte) ∉ x.dropLast :=
  Shares.lines (DisciplinedAny.shares hd d hp ht) hp hn hl hw ho

/-- C126: the position of a reader is where it began and what it has read since. -/
theorem C126_tell {h : List Item} {i : Sid} (hd : DisciplinedAny (h ++ [Item.did i .tell])) (d : Bytes)
    (hp : ∀ it ∈ h ++ [Item.did i .tell], Follows it) (ht : ReadersTell (h ++ [Item.did i .tell])) :
    (((beforehand d).play h).2.step (Item.did i .tell)).1 =
      .num ((followed i ((beforehand d).play h).1).start + (followed i ((beforehand d).play h).1).got.length) :=
  Shares.tells (DisciplinedAny.shares hd d hp ht) hp ht

/-- C126: no call fails: what is written to the log is accepted, and readers get bytes. -/
theorem C126_served {h : List Item} {i : Sid} {op : StreamOp} (hd : DisciplinedAny (h ++ [Item.did i op])) (d : Bytes)
    (hp : ∀ it ∈ h ++ [Item.did i op], Follows it) (ht : ReadersTell (h ++ [Item.did i op])) :
    Served h i op (((beforehand d).play h).2.step (Item.did i op)).1 :=
  Shares.served (DisciplinedAny.shares hd d hp ht) hp

/-- C126 on windows.  (Under the assumptions of C93.) -/
theorem C126_windows {h : List Item} (hd : WinDisciplinedAny h) (d : Bytes) (hp : ∀ it ∈ h, Follows it)
    (ht : ReadersTell h) : FollowsLog d h :=
  Shares.follows (WinDisciplinedAny.shares hd d hp ht) hp

theorem C126_windows_caught_up {h : List Item} {i : Sid} {op : StreamOp} {x : Bytes} (hd : WinDisciplinedAny (h ++ [Item.did i op]))
    (d : Bytes) (hp : ∀ it ∈ h ++ [Item.did i op], Follows it) (ht : ReadersTell (h ++ [Item.did i op]))
    (ho : (((beforehand d).play h).2.step (Item.did i op)).1 = .bytes x)
    (hx : CaughtUp op x) :
    (followed i ((beforehand d).play (h ++ [Item.did i op])).1).got =
      (d ++ logEntries ((beforehand d).play (h ++ [Item.did i op])).1).drop (followed i ((beforehand d).play (h ++ [Item.did i op])).1).start :=
  Shares.caughtUp (WinDisciplinedAny.shares hd d hp ht) hp ho hx

theorem C126_windows_lines {h : List Item} {i : Sid} {n : Int} {x : Bytes} (hd : WinDisciplinedAny (h ++ [Item.did i (.readline n)]))
    (d : Bytes) (hp : ∀ it ∈ h ++ [Item.did i (.readline n)], Follows it)
    (ht : ReadersTell (h ++ [Item.did i (.readline n)])) (hn : n < 0) (hl : EndsLines d)
    (hw : ∀ j y, Item.did j (.write y) ∈ h → EndsLines y)
    (ho : (((beforehand d).play h).2.step (Item.did i (.readline n))).1 = .bytes x) :
    x = [] ∨ x.getLast? = some 10 ∧ (10 : Byte) ∉ x.dropLast :=
  Shares.lines (WinDisciplinedAny.shares hd d hp ht) hp hn hl hw ho

theorem C126_windows_tell {h : List Item} {i : Sid} (hd : WinDisciplinedAny (h ++ [Item.did i .tell])) (d : Bytes)
    (hp : ∀ it ∈ h ++ [Item.did i .tell], Follows it) (ht : ReadersTell (h ++ [Item.did i .tell])) :
    (((beforehand d).play h).2.step (Item.did i .tell)).1 =
      .num ((followed i ((beforehand d).play h).1).start + (followed i ((beforehand d).play h).1).got.length) :=
  Shares.tells (WinDisciplinedAny.shares hd d hp ht) hp ht

theorem C126_windows_served {h : List Item} {i : Sid} {op : StreamOp} (hd : WinDisciplinedAny (h ++ [Item.did i op])) (d : Bytes)
    (hp : ∀ it ∈ h ++ [Item.did i op], Follows it) (ht : ReadersTell (h ++ [Item.did i op])) :
    Served h i op (((beforehand d).play h).2.step (Item.did i op)).1 :=
  Shares.served (WinDisciplinedAny.shares hd d hp ht) hp

/-! ## With the system that grants the locks -/

theorem JointAny.shared {u : Uid} {h : List Item} {ls : List Label} {w : World} {tr : List Event} (hj : JointAny u h ls w tr)
    (hc : ∀ tr₁ tr₂, tr = tr₁ ++ tr₂ → NoSharedOverlap (heldOf tr₁ ++ requestedOf tr₁)) : DisciplinedAny h := by
  induction hj with
  | init => exact .nil
  | @system h ls w w' tr e l hj _ _ _ ih => exact ih fun t₁ t₂ he => hc t₁ (t₂ ++ e) (by rw [he, List.append_assoc])
  | @item h ls w tr it hj hp hh ih =>
    refine .snoc (ih hc) hp ?_
    intro a ha b hb hne
    have hr := JointAny.reach hj
    obtain ⟨x, x1, x2, x3, x4, x5⟩ := hh a ha
    obtain ⟨y, y1, y2, y3, y4, y5⟩ := hh b hb
    have hs : (x.pid, x.sid) ≠ (y.pid, y.sid) := by rw [x3, y3]; exact hne
    have hs' : (y.pid, y.sid) ≠ (x.pid, x.sid) := fun he => hs he.symm
    have hu : x.uid = y.uid := x2.trans y2.symm
    have hm : Meet x.start x.stop y.start y.stop := ⟨0, x5, y5⟩
    have hm' : Meet y.start y.stop x.start x.stop := ⟨0, y5, x5⟩
    rw [← x4, ← y4]
    cases hxs : x.shared <;> cases hys : y.shared
    · exact absurd hm (C01_exclusive hr x1 y1 hxs hys hu hs)
    · exact absurd hm' (C02_shared_excludes_writer_partial hr hc y1 x1 hys hxs hu.symm hs')
    · exact absurd hm (C02_shared_excludes_writer_partial hr hc x1 y1 hxs hys hu hs)
    · exact ⟨rfl, rfl⟩

/-- C123 with shared and exclusive locks, together with the system that grants them, as long as no two streams of one process hold or
request overlapping shared locks (see C02). -/
theorem C123_shared_partial {u : Uid} {h : List Item} {ls : List Label} {w : World} {tr : List Event} (hj : JointAny u h ls w tr)
    (hc : ∀ tr₁ tr₂, tr = tr₁ ++ tr₂ → NoSharedOverlap (heldOf tr₁ ++ requestedOf tr₁)) (d : Bytes) :
    ∃ pre post s, h = pre ++ post ∧ Pooled (.start d) ((beforehand d).play pre).1 s ∧
      ((∀ i, (i, false) ∉ holding pre) → ((beforehand d).play pre).2.file = s.data) ∧
      (post = [] ∨ ∃ it rest, post = it :: rest ∧ s.Unsafe it) :=
  C123_serial_partial (JointAny.shared hj hc) d

/-- C126 together with the processes, threads, registries and kernel that grant the locks; readers with exclusive locks. -/
theorem C126_exclusive {u : Uid} {h : List Item} {ls : List Label} {w : World} {tr : List Event} (hj : JointAny u h ls w tr)
    (hx : ∀ i, Item.granted i true ∉ h) (d : Bytes) (hp : ∀ it ∈ h, Follows it) (ht : ReadersTell h) : FollowsLog d h :=
  C126_follow (JointAny.disciplined hj hx) d hp ht

/-- The same when readers share their locks.  Missing: two readers in one process (see C02). -/
theorem C126_shared_partial {u : Uid} {h : List Item} {ls : List Label} {w : World} {tr : List Event} (hj : JointAny u h ls w tr)
    (hc : ∀ tr₁ tr₂, tr = tr₁ ++ tr₂ → NoSharedOverlap (heldOf tr₁ ++ requestedOf tr₁)) (d : Bytes) (hp : ∀ it ∈ h, Follows it)
    (ht : ReadersTell h) : FollowsLog d h :=
  C126_follow (JointAny.shared hj hc) d hp ht

/-- C126 together with the processes, threads, registries and kernel of windows. -/
theorem C126_windows_locks {u : Uid} {h : List Item} {ls : List Win.Label} {w : Win.World} {tr : List Event}
    (hj : WinJointAny u h ls w tr) (d : Bytes) (hp : ∀ it ∈ h, Follows it) (ht : ReadersTell h) : FollowsLog d h :=
  C126_windows (WinJointAny.disciplined hj) d hp ht

/-! ## Cases -/

/-- A program appends lines in two critical sections; another one reads, between them and after them, with a shared lock. -/
def tailed (a r : Buf) : List Item :=
  [.opened (1, 10) a, .opened (2, 20) r, .ask (1, 10), .granted (1, 10) false, .did (1, 10) (.write [65, 10, 66, 10]), .unlock (1, 10),
    .ask (2, 20), .granted (2, 20) true, .did (2, 20) (.readline (-1)), .did (2, 20) .tell, .unlock (2, 20),
    .ask (1, 10), .granted (1, 10) false, .did (1, 10) (.write [67, 10]), .unlock (1, 10),
    .ask (2, 20), .granted (2, 20) true, .did (2, 20) (.readline (-1)), .did (2, 20) (.read none)]

/-- Each item may come after those before it. -/
def AllSteps (P : List Item → Item → Prop) : List Item → List Item → Prop
  | _, [] => True
  | h, it :: rest => P h it ∧ Exclusion (holding (h ++ [it])) ∧ AllSteps P (h ++ [it]) rest

theorem AllSteps.disciplined : ∀ {rest h : List Item}, DisciplinedAny h → AllSteps ProperAny h rest → DisciplinedAny (h ++ rest)
  | [], h, hd, _ => by rw [List.append_nil]; exact hd
  | it :: rest, h, hd, hs => by
    rw [List.append_cons]
    exact AllSteps.disciplined (hd.snoc hs.1 hs.2.1) hs.2.2

theorem AllSteps.winDisciplined : ∀ {rest h : List Item}, WinDisciplinedAny h → AllSteps WinProperAny h rest →
    WinDisciplinedAny (h ++ rest)
  | [], h, hd, _ => by rw [List.append_nil]; exact hd
  | it :: rest, h, hd, hs => by
    rw [List.append_cons]
    exact AllSteps.winDisciplined (hd.snoc hs.1 hs.2.1) hs.2.2

theorem AllSteps.take {P : List Item → Item → Prop} : ∀ {rest h : List Item} (n : Nat), AllSteps P h rest → AllSteps P h (rest.take n)
  | [], _, _, _ => by simp [AllSteps]
  | _ :: _, _, 0, _ => by simp [AllSteps]
  | _ :: _, _, n + 1, hs => ⟨hs.1, hs.2.1, AllSteps.take n hs.2.2⟩

theorem tailed_steps {a r : Buf} (ha : FreshAny a) (hr : FreshAny r) : AllSteps ProperAny [] (tailed a r) := by
  simp [tailed, AllSteps, ProperAny, Proper, ha, hr, openIn, openStep, holding, holdStep, lastOf, streamOf, Exclusion, Inquires, Changes]

theorem winTailed_steps {a r : Buf} (ha : WinFreshAny a) (hr : WinFreshAny r) : AllSteps WinProperAny [] (tailed a r) := by
  simp [tailed, AllSteps, WinProperAny, Proper, ha, hr, openIn, openStep, holding, holdStep, lastOf, streamOf, Exclusion, Inquires, Changes]

theorem exReader_any : FreshAny exReader := ⟨exReader_fresh.1, rfl, rfl, exReader_fresh.2.2.2.2, nofun⟩

/-- A stream of windows opened on an empty file to read it. -/
def winTail : Buf := { exReader with raw := { exReader.raw with platform := .windows } }

theorem winTail_fresh : WinFreshAny winTail :=
  ⟨⟨.reader, 8, winTail.raw, by simp [Buf.create, winTail, exReader, opened, rawOf]⟩, rfl, fun _ => rfl, rfl, exReader_fresh.2.2.2.2, nofun⟩

theorem tailed_follows {a r : Buf} (ha : a.raw.append = true) (hk : a.kind = .writer) (hr : r.kind = .reader) :
    ∀ it ∈ tailed a r, Follows it := by simp [tailed, Follows, ha, hk, hr]

theorem tailed_tell {a r : Buf} (hr : r.kind = .reader) : ReadersTell (tailed a r) := by
  intro i b h1 h2
  simp [tailed] at h1 h2
  subst h1
  simp at h2
  rw [h2]; exact hr

example : DisciplinedAny (tailed exAppender exReader) ∧ ReadersTell (tailed exAppender exReader) ∧ (∀ it ∈ tailed exAppender exReader, Follows it) ∧
    (followed (2, 20) ((beforehand []).play (tailed exAppender exReader)).1).got = [65, 10, 66, 10, 67, 10] ∧
    logEntries ((beforehand []).play (tailed exAppender exReader)).1 = [65, 10, 66, 10, 67, 10] :=
  ⟨by simpa using AllSteps.disciplined .nil (tailed_steps exAppender_fresh exReader_any), tailed_tell rfl, tailed_follows rfl rfl rfl,
    by decide +kernel, by decide +kernel⟩

example : WinDisciplinedAny (tailed winAppender winTail) ∧ (∀ it ∈ tailed winAppender winTail, Follows it) ∧
    (followed (2, 20) ((beforehand []).play (tailed winAppender winTail)).1).got = [65, 10, 66, 10, 67, 10] :=
  ⟨by simpa using AllSteps.winDisciplined .nil (winTailed_steps winAppender_fresh winTail_fresh), tailed_follows rfl rfl rfl,
    by decide +kernel⟩

-- the hypotheses of `C126_tell`
example : (tailed exAppender exReader).take 10 = (tailed exAppender exReader).take 9 ++ [Item.did (2, 20) .tell] ∧
    DisciplinedAny ((tailed exAppender exReader).take 10) ∧
    (((beforehand []).play ((tailed exAppender exReader).take 9)).2.step (Item.did (2, 20) .tell)).1 = .num 2 :=
  ⟨rfl, by simpa using AllSteps.disciplined .nil (AllSteps.take 10 (tailed_steps exAppender_fresh exReader_any)), by decide +kernel⟩

-- the hypotheses of `C126_caught_up` and `C126_lines`, also on windows
example : tailed exAppender exReader = (tailed exAppender exReader).take 18 ++ [Item.did (2, 20) (.read none)] ∧
    (((beforehand []).play ((tailed exAppender exReader).take 18)).2.step (Item.did (2, 20) (.read none))).1 = .bytes [67, 10] ∧
    CaughtUp (.read none) [67, 10] := ⟨rfl, by decide +kernel, trivial⟩

example : Fetches (.readline (-1)) ∧ (∀ b, Item.opened (2, 20) b ∈ (tailed exAppender exReader).take 8 → b.kind = .reader) ∧
    (∀ b, Item.opened (1, 10) b ∈ (tailed exAppender exReader).take 4 → b.kind = .writer) :=
  ⟨trivial, by simp [tailed]; rfl, by simp [tailed]; rfl⟩

example : (tailed exAppender exReader).take 9 = (tailed exAppender exReader).take 8 ++ [Item.did (2, 20) (.readline (-1))] ∧
    DisciplinedAny ((tailed exAppender exReader).take 9) ∧ EndsLines [] ∧
    (∀ j y, Item.did j (.write y) ∈ (tailed exAppender exReader).take 8 → EndsLines y) ∧
    (((beforehand []).play ((tailed exAppender exReader).take 8)).2.step (Item.did (2, 20) (.readline (-1)))).1 = .bytes [65, 10] :=
  ⟨rfl, by simpa using AllSteps.disciplined .nil (AllSteps.take 9 (tailed_steps exAppender_fresh exReader_any)), .inl rfl,
    by simp [tailed, EndsLines], by decide +kernel⟩

example : (((beforehand []).play ((tailed winAppender winTail).take 18)).2.step (Item.did (2, 20) (.read none))).1 = .bytes [67, 10] ∧
    WinDisciplinedAny ((tailed winAppender winTail).take 9) ∧
    (((beforehand []).play ((tailed winAppender winTail).take 8)).2.step (Item.did (2, 20) (.readline (-1)))).1 = .bytes [65, 10] :=
  ⟨by decide +kernel, by simpa using AllSteps.winDisciplined .nil (AllSteps.take 9 (winTailed_steps winAppender_fresh winTail_fresh)),
    by decide +kernel⟩

theorem JointAny.run {u : Uid} {h : List Item} {ls₀ : List Label} {w₀ : World} {tr₀ : List Event} (hj : JointAny u h ls₀ w₀ tr₀)
    (hh : holding h = []) (ls : List Label) (hn : ls.all Label.noWrap = true) {w : World} {tr : List Event}
    (hr : runFrom w₀ tr₀ ls = some (w, tr)) : JointAny u h (ls₀ ++ ls) w tr := by
  induction ls generalizing ls₀ w₀ tr₀ with
  | nil => simp only [runFrom, Option.some.injEq, Prod.mk.injEq] at hr; obtain ⟨rfl, rfl⟩ := hr; simpa using hj
  | cons l ls ih =>
    simp only [List.all_cons, Bool.and_eq_true] at hn
    simp only [runFrom] at hr
    split at hr
    · rename_i w' e hs
      have := ih (hj.system (wellWrapped_of_noWrap hn.1 _) hs (by rw [hh]; nofun)) hn.2 hr
      simpa using this
    · cases hr

/-- Items between two steps of the system, in which one lock is held or none. -/
theorem JointAny.items {u : Uid} {ls : List Label} {w : World} {tr : List Event} {a : Sid × Bool}
    (ha : ∃ x ∈ heldOf tr, x.uid = u ∧ (x.pid, x.sid) = a.1 ∧ x.shared = a.2 ∧ Covers x.start x.stop 0) :
    ∀ {rest h : List Item}, JointAny u h ls w tr → AllSteps ProperAny h rest →
      (∀ n, ∀ b ∈ holding (h ++ rest.take n), b = a) → JointAny u (h ++ rest) ls w tr
  | [], h, hj, _, _ => by rw [List.append_nil]; exact hj
  | it :: rest, h, hj, hs, hh => by
    rw [List.append_cons]
    refine JointAny.items ha (hj.item hs.1 fun b hb => ?_) hs.2.2 fun n b hb => hh (n + 1) b (by simpa using hb)
    rw [hh 1 b (by simpa using hb)]
    exact ha

/-- What the lock system does between the sections: the first program gives up its lock, the second one gets a shared lock. -/
def beforeTail : List Label := doUnlock 1 10 none 0 ++ doLock 2 0 20 none 0 true

theorem AllSteps.split {P : List Item → Item → Prop} : ∀ {a b h : List Item}, AllSteps P h (a ++ b) → AllSteps P h a ∧ AllSteps P (h ++ a) b
  | [], b, h, hs => ⟨trivial, by rw [List.append_nil]; exact hs⟩
  | it :: a, b, h, hs => by
    have := AllSteps.split hs.2.2
    exact ⟨⟨hs.1, hs.2.1, this.1⟩, by rw [List.append_cons]; exact this.2⟩

-- the first two critical sections with the lock system
example : ∃ ls w tr, JointAny (0, 7) ((tailed exAppender exReader).take 9) ls w tr ∧
    (∀ tr₁ tr₂, tr = tr₁ ++ tr₂ → NoSharedOverlap (heldOf tr₁ ++ requestedOf tr₁)) ∧
    (∀ it ∈ (tailed exAppender exReader).take 9, Follows it) := by
  have e1 : (Verif.run before₁).map (fun x => heldOf x.2) = some [⟨1, 10, (0, 7), false, 0, none⟩] := by decide
  have e2 : ((Verif.run before₁).bind (fun x => runFrom x.1 x.2 beforeTail)).map (fun x => heldOf x.2) =
      some [⟨2, 20, (0, 7), true, 0, none⟩] := by decide
  have e3 : ((Verif.run before₁).bind (fun x => runFrom x.1 x.2 beforeTail)).map Prod.snd = some
      [.opened 1 10 3 (0, 7) true, .opened 2 20 3 (0, 7) true, .lockReq 1 10 (0, 7) false 0 none,
        .locked 1 10 (0, 7) false 0 none, .unlocked 1 10 (0, 7) 0 none, .lockReq 2 20 (0, 7) true 0 none,
        .locked 2 20 (0, 7) true 0 none] := by decide
  cases hr1 : Verif.run before₁ with
  | none => rw [hr1] at e1; cases e1
  | some x =>
    rw [hr1] at e1 e2 e3
    simp only [Option.map_some, Option.some.injEq] at e1
    simp only [Option.bind_some] at e2 e3
    cases hr2 : runFrom x.1 x.2 beforeTail with
    | none => rw [hr2] at e2; cases e2
    | some y =>
      rw [hr2] at e2 e3
      simp only [Option.map_some, Option.some.injEq] at e2 e3
      have hs := AllSteps.take 9 (tailed_steps exAppender_fresh exReader_any)
      have hs' : AllSteps ProperAny [] ((tailed exAppender exReader).take 6 ++ ((tailed exAppender exReader).take 9).drop 6) := hs
      obtain ⟨s1, s2⟩ := AllSteps.split hs'
      have j0 : JointAny (0, 7) [] _ x.1 x.2 := JointAny.run .init rfl before₁ (by decide) hr1
      have j1 := JointAny.items (a := ((1, 10), false)) ⟨_, by rw [e1]; exact List.mem_cons_self, rfl, rfl, rfl, by simp [Covers]⟩ j0 s1
        (by
          intro n
          have : ∀ n < 7, ∀ b ∈ holding ([] ++ ((tailed exAppender exReader).take 6).take n), b = ((1, 10), false) := by decide +kernel
          by_cases hn : n < 7
          · exact this n hn
          · rw [List.take_of_length_le (by simp [tailed]; omega)]
            exact this 6 (by decide))
      have j2 := JointAny.run j1 rfl beforeTail (by decide) hr2
      have j3 := JointAny.items (a := ((2, 20), true)) ⟨⟨2, 20, (0, 7), true, 0, none⟩, by rw [e2]; exact List.mem_cons_self, rfl, rfl, rfl, by simp [Covers]⟩ j2 s2
        (by
          intro n
          have : ∀ n < 4, ∀ b ∈ holding (([] ++ (tailed exAppender exReader).take 6) ++
              (((tailed exAppender exReader).take 9).drop 6).take n), b = ((2, 20), true) := by decide +kernel
          by_cases hn : n < 4
          · exact this n hn
          · rw [List.take_of_length_le (l := ((tailed exAppender exReader).take 9).drop 6) (by simp [tailed]; omega)]
            exact this 3 (by decide))
      refine ⟨_, y.1, y.2, j3, ?_, fun it hi => tailed_follows rfl rfl rfl it (List.mem_of_mem_take hi)⟩
      rw [e3]
      exact prefixes (P := fun t => NoSharedOverlap (heldOf t ++ requestedOf t)) (by decide)

theorem WinJointAny.run {u : Uid} {h : List Item} (hh : holding h = []) {ls : List Win.Label} :
    ∀ {ls₀ : List Win.Label} {w₀ w : Win.World} {tr₀ tr : List Event}, WinJointAny u h ls₀ w₀ tr₀ →
      Win.checkedFrom (fun pre w l => Win.wrappedB pre w l && Win.singleB w l && Win.fitsB l) ls₀ w₀ tr₀ ls = some (w, tr) →
      WinJointAny u h (ls₀ ++ ls) w tr := by
  induction ls with
  | nil =>
    intro ls₀ w₀ w tr₀ tr hj h'
    simp only [Win.checkedFrom, Option.some.injEq, Prod.mk.injEq] at h'
    obtain ⟨rfl, rfl⟩ := h'
    simpa using hj
  | cons l ls ih =>
    intro ls₀ w₀ w tr₀ tr hj h'
    simp only [Win.checkedFrom] at h'
    split at h'
    · rename_i hl
      simp only [Bool.and_eq_true] at hl
      split at h'
      · rename_i w₁ e hs
        have := ih (hj.system ⟨Win.wrapped_of_B (WinJointAny.reach hj) hl.1.1, Win.single_of_B hl.1.2, Win.fits_of_B hl.2⟩ hs
          (by rw [hh]; nofun)) h'
        simpa using this
      · cases h'
    · cases h'

theorem WinJointAny.items {u : Uid} {ls : List Win.Label} {w : Win.World} {tr : List Event} {a : Sid × Bool}
    (ha : ∃ x ∈ heldOf tr, x.uid = u ∧ (x.pid, x.sid) = a.1 ∧ x.shared = a.2 ∧ Covers x.start x.stop 0) :
    ∀ {rest h : List Item}, WinJointAny u h ls w tr → AllSteps WinProperAny h rest →
      (∀ n, ∀ b ∈ holding (h ++ rest.take n), b = a) → WinJointAny u (h ++ rest) ls w tr
  | [], h, hj, _, _ => by rw [List.append_nil]; exact hj
  | it :: rest, h, hj, hs, hh => by
    rw [List.append_cons]
    refine WinJointAny.items ha (hj.item hs.1 fun b hb => ?_) hs.2.2 fun n b hb => hh (n + 1) b (by simpa using hb)
    rw [hh 1 b (by simpa using hb)]
    exact ha

/-- What the lock system of windows does before the first and before the second section. -/
def winBeforeTail₁ : List Win.Label :=
  [.newProc 1, .newProc 2, .act 1 (.openS 10 100 (0, 7)), .act 2 (.openS 20 104 (0, 7))] ++ Win.doLock 1 0 10 none 0 false
def winBeforeTail₂ : List Win.Label := Win.doUnlock 1 10 none 0 ++ Win.doLock 2 0 20 none 0 true

-- the first two critical sections with the lock system of windows
example : ∃ ls w tr, WinJointAny (0, 7) ((tailed winAppender winTail).take 9) ls w tr ∧
    (∀ it ∈ (tailed winAppender winTail).take 9, Follows it) := by
  have e1 : (Win.sane winBeforeTail₁).map (fun x => heldOf x.2) = some [⟨1, 10, (0, 7), false, 0, none⟩] := by decide +kernel
  have e2 : ((Win.sane winBeforeTail₁).bind (fun x => Win.checkedFrom (fun pre w l => Win.wrappedB pre w l && Win.singleB w l &&
      Win.fitsB l) winBeforeTail₁ x.1 x.2 winBeforeTail₂)).map (fun x => heldOf x.2) =
      some [⟨2, 20, (0, 7), true, 0, none⟩] := by decide +kernel
  cases hr1 : Win.sane winBeforeTail₁ with
  | none => rw [hr1] at e1; cases e1
  | some x =>
    rw [hr1] at e1 e2
    simp only [Option.map_some, Option.some.injEq] at e1
    simp only [Option.bind_some] at e2
    cases hr2 : Win.checkedFrom (fun pre w l => Win.wrappedB pre w l && Win.singleB w l && Win.fitsB l) winBeforeTail₁ x.1 x.2
        winBeforeTail₂ with
    | none => rw [hr2] at e2; cases e2
    | some y =>
      rw [hr2] at e2
      simp only [Option.map_some, Option.some.injEq] at e2
      have hs' : AllSteps WinProperAny [] ((tailed winAppender winTail).take 6 ++ ((tailed winAppender winTail).take 9).drop 6) :=
        AllSteps.take 9 (winTailed_steps winAppender_fresh winTail_fresh)
      obtain ⟨s1, s2⟩ := AllSteps.split hs'
      have j0 : WinJointAny (0, 7) [] winBeforeTail₁ x.1 x.2 := WinJointAny.run (ls := winBeforeTail₁) rfl .init hr1
      have j1 := WinJointAny.items (a := ((1, 10), false))
        ⟨⟨1, 10, (0, 7), false, 0, none⟩, by rw [e1]; exact List.mem_cons_self, rfl, rfl, rfl, by simp [Covers]⟩ j0 s1
        (by
          intro n
          have : ∀ n < 7, ∀ b ∈ holding ([] ++ ((tailed winAppender winTail).take 6).take n), b = ((1, 10), false) := by decide +kernel
          by_cases hn : n < 7
          · exact this n hn
          · rw [List.take_of_length_le (by simp [tailed]; omega)]
            exact this 6 (by decide))
      have j2 := WinJointAny.run (ls := winBeforeTail₂) rfl j1 hr2
      have j3 := WinJointAny.items (a := ((2, 20), true))
        ⟨⟨2, 20, (0, 7), true, 0, none⟩, by rw [e2]; exact List.mem_cons_self, rfl, rfl, rfl, by simp [Covers]⟩ j2 s2
        (by
          intro n
          have : ∀ n < 4, ∀ b ∈ holding (([] ++ (tailed winAppender winTail).take 6) ++
              (((tailed winAppender winTail).take 9).drop 6).take n), b = ((2, 20), true) := by decide +kernel
          by_cases hn : n < 4
          · exact this n hn
          · rw [List.take_of_length_le (l := ((tailed winAppender winTail).take 9).drop 6) (by simp [tailed]; omega)]
            exact this 3 (by decide))
      exact ⟨_, y.1, y.2, j3, fun it hi => tailed_follows rfl rfl rfl it (List.mem_of_mem_take hi)⟩

end Verif.Props
