import Verif.Lemmas.RecordSteps
import Verif.Props.Together

/-!
# C111: streams that lock the bytes they use
-/

set_option autoImplicit false

namespace Verif.Props

open Verif Verif.Spec

/-- C111 (partial): any number of buffered streams that lock different bytes of one file and read and write only those
bytes see one byte array with a position for each stream, although each of them reads ahead and buffers bytes that it has
not locked: nobody ever gets a stale byte and nobody ever overwrites a byte of somebody else.  The bytes that nobody has
locked exclusively are in the file.  Missing: calls that change the size of the file (`C111_extend_refuted`), and seeks to
before its beginning (see C23). -/
theorem C111_records_partial {d : Bytes} {h : List RecItem} (hd : RecDisciplined d h) :
    ∃ s, Serially (.start d) (recorded d h).1 s ∧ (recorded d h).2.file.length = s.data.length ∧
      ∀ x, (∀ i, ¬ Owns (records h) i x) → (recorded d h).2.file[x]? = s.data[x]? := by
  obtain ⟨s, h1, h2⟩ := Rec.Inv.history hd
  exact ⟨s, h1, h2.length, fun x hx => h2.file x fun j c hc hp => hx j ((h2.st j c hc).own x hp).1⟩

/-- C111 (partial): in particular, when nobody holds an exclusive lock, the array is the file. -/
theorem C111_file_partial {d : Bytes} {h : List RecItem} (hd : RecDisciplined d h) (hr : ∀ r ∈ records h, r.shared = true) :
    ∃ s, Serially (.start d) (recorded d h).1 s ∧ (recorded d h).2.file = s.data := by
  obtain ⟨s, h1, _, h3⟩ := C111_records_partial hd
  refine ⟨s, h1, List.ext_getElem? fun x => h3 x ?_⟩
  rintro i ⟨r, k1, _, k2, _⟩
  rw [hr r k1] at k2
  cases k2

/-! ## With the system that grants the locks -/

theorem RecJoint.reach {u : Uid} {h : List RecItem} {ls : List Label} {w : World} {tr : List Event} (hj : RecJoint u h ls w tr) :
    Reach ls w tr := by
  induction hj with
  | init => exact .init
  | system _ hw hs _ ih => exact ih.step hw hs
  | item _ _ ih => exact ih

theorem RecJoint.exclusion {u : Uid} {h : List RecItem} {ls : List Label} {w : World} {tr : List Event} (hj : RecJoint u h ls w tr)
    (hx : ∀ h₁ h₂ w' ls' tr₁ tr₂, h = h₁ ++ h₂ → tr = tr₁ ++ tr₂ → Reach ls' w' tr₁ → RecHeldIn u tr₁ (records h₁) →
      RecExclusion (records h₁)) (pre : List RecItem) (it : RecItem) (post : List RecItem) (e : h = pre ++ it :: post) :
    RecExclusion (records (pre ++ [it])) := by
  induction hj generalizing pre it post with
  | init => simp at e
  | @system h ls w w' tr e' l hj _ _ _ ih =>
    exact ih (fun h₁ h₂ w' ls' tr₁ tr₂ e1 e2 => hx h₁ h₂ w' ls' tr₁ (tr₂ ++ e') e1 (by rw [e2, List.append_assoc])) pre it post e
  | @item h ls w tr it' hj hh ih =>
    rcases List.eq_nil_or_concat post with rfl | ⟨post', y, rfl⟩
    · obtain ⟨rfl, e2⟩ := List.append_inj' e rfl
      cases e2
      exact hx _ [] w ls tr [] (by simp) (by simp) (RecJoint.reach hj) hh
    · have e' : h ++ [it'] = (pre ++ it :: post') ++ [y] := by rw [e]; simp
      obtain ⟨e1, _⟩ := List.append_inj' e' rfl
      exact ih (fun h₁ h₂ w' ls' tr₁ tr₂ e1 e2 => hx h₁ (h₂ ++ [it']) w' ls' tr₁ tr₂ (by rw [e1, List.append_assoc]) e2) pre it post' e1

theorem records_modes {h : List RecItem} (hx : ∀ i a e, RecItem.granted i true a e ∉ h) : ∀ r ∈ records h, r.shared = false := by
  unfold records
  suffices ∀ H : List Record, (∀ r ∈ H, r.shared = false) → ∀ r ∈ h.foldl recStep H, r.shared = false from this [] nofun
  induction h with
  | nil => exact fun H hH => hH
  | cons it its ih =>
    intro H hH
    refine ih (fun i a e hi => hx i a e (List.mem_cons_of_mem _ hi)) _ ?_
    cases it with
    | granted i sh a e =>
      cases sh with
      | true => exact absurd List.mem_cons_self (hx i a e)
      | false =>
        intro r hr
        simp only [recStep, List.mem_append, List.mem_singleton] at hr
        rcases hr with hr | rfl
        · exact hH r hr
        · rfl
    | opened i b => exact hH
    | ask i => exact hH
    | did i op => exact hH
    | unlock i a e => exact fun r hr => hH r (List.mem_filter.1 hr).1
    | exit i a e => exact fun r hr => hH r (List.mem_filter.1 hr).1
    | close i => exact fun r hr => hH r (List.mem_filter.1 hr).1
    | gone p => exact fun r hr => hH r (List.mem_filter.1 hr).1

/-- C111, together with the processes, threads, registries and kernel that grant the locks, with exclusive locks: in any
interleaving, in any number of processes, streams that use only the bytes they have locked behave as one byte array. -/
theorem C111_exclusive_partial {u : Uid} {d : Bytes} {h : List RecItem} {ls : List Label} {w : World} {tr : List Event}
    (hj : RecJoint u h ls w tr) (ho : AlwaysOrderly d h) (hx : ∀ i a e, RecItem.granted i true a e ∉ h) :
    ∃ s, Serially (.start d) (recorded d h).1 s ∧ (recorded d h).2.file.length = s.data.length ∧
      ∀ x, (∀ i, ¬ Owns (records h) i x) → (recorded d h).2.file[x]? = s.data[x]? := by
  refine C111_records_partial fun pre it post e => ⟨ho pre it post e, RecJoint.exclusion hj ?_ pre it post e⟩
  intro h₁ h₂ w' ls' tr₁ tr₂ e1 _ hr hh a ha b hb hne hm
  exfalso
  have hmo := records_modes (h := h₁) (fun i a e hi => hx i a e (by rw [e1]; exact List.mem_append_left _ hi))
  obtain ⟨x, x1, x2, x3, x4, x5, x6⟩ := hh a ha
  obtain ⟨y, y1, y2, y3, y4, y5, y6⟩ := hh b hb
  exact C01_exclusive hr x1 y1 (x4.trans (hmo a ha)) (y4.trans (hmo b hb)) (x2.trans y2.symm)
    (by rw [x3, y3]; exact hne) (by rw [x5, x6, y5, y6]; exact hm)

/-- C111 with shared and exclusive locks, as long as no two streams of one process hold or request overlapping shared locks
(see C02). -/
theorem C111_shared_partial {u : Uid} {d : Bytes} {h : List RecItem} {ls : List Label} {w : World} {tr : List Event}
    (hj : RecJoint u h ls w tr) (ho : AlwaysOrderly d h)
    (hc : ∀ tr₁ tr₂, tr = tr₁ ++ tr₂ → NoSharedOverlap (heldOf tr₁ ++ requestedOf tr₁)) :
    ∃ s, Serially (.start d) (recorded d h).1 s ∧ (recorded d h).2.file.length = s.data.length ∧
      ∀ x, (∀ i, ¬ Owns (records h) i x) → (recorded d h).2.file[x]? = s.data[x]? := by
  refine C111_records_partial fun pre it post e => ⟨ho pre it post e, RecJoint.exclusion hj ?_ pre it post e⟩
  intro h₁ h₂ w' ls' tr₁ tr₂ _ e2 hr hh a ha b hb hne hm
  have hc' : ∀ t₁ t₂, tr₁ = t₁ ++ t₂ → NoSharedOverlap (heldOf t₁ ++ requestedOf t₁) :=
    fun t₁ t₂ e => hc t₁ (t₂ ++ tr₂) (by rw [e2, e, List.append_assoc])
  obtain ⟨x, x1, x2, x3, x4, x5, x6⟩ := hh a ha
  obtain ⟨y, y1, y2, y3, y4, y5, y6⟩ := hh b hb
  have hs : (x.pid, x.sid) ≠ (y.pid, y.sid) := by rw [x3, y3]; exact hne
  have hs' : (y.pid, y.sid) ≠ (x.pid, x.sid) := fun he => hs he.symm
  have hu : x.uid = y.uid := x2.trans y2.symm
  rw [← x5, ← x6, ← y5, ← y6] at hm
  have hm' : Meet y.start y.stop x.start x.stop := by obtain ⟨z, z1, z2⟩ := hm; exact ⟨z, z2, z1⟩
  rw [← x4, ← y4]
  cases hxs : x.shared <;> cases hys : y.shared
  · exact absurd hm (C01_exclusive hr x1 y1 hxs hys hu hs)
  · exact absurd hm' (C02_shared_excludes_writer_partial hr hc' y1 x1 hys hxs hu.symm hs')
  · exact absurd hm (C02_shared_excludes_writer_partial hr hc' x1 y1 hxs hys hu hs)
  · exact ⟨rfl, rfl⟩

/-! ## Example: two processes that work on two halves of a file at the same time -/

/-- A stream for reading and writing, with a buffer of eight bytes. -/
def exBoth : Buf := opened .random 8 [] []

theorem exBoth_fresh : FreshStream exBoth :=
  ⟨⟨_, _, _, (opened_ok .random 8 (by decide) [] []).1⟩, rfl, rfl, rfl, by simp [Blocking, exBoth, opened, rawOf]⟩

/-- Process 1 locks the first half and reads it, and with it reads ahead the second half, which process 2 has locked and
changes.  Then it locks and reads the second half, too. -/
def halves : List RecItem :=
  [.opened (1, 10) exBoth, .opened (2, 20) exBoth, .ask (1, 10), .granted (1, 10) false 0 (some 2), .ask (2, 20),
    .granted (2, 20) false 2 (some 4), .did (1, 10) (.read (some 2)), .did (2, 20) (.seek 2 .set), .did (2, 20) (.write [9, 8]),
    .unlock (2, 20) 2 (some 4), .ask (1, 10), .granted (1, 10) false 2 (some 4), .did (1, 10) (.read (some 2))]

def halvesStart : Bytes := [1, 2, 3, 4]

/-- What the array and the positions are after a history of two streams. -/
def Amounts (h : List RecItem) (D : Bytes) (p q : Nat) : Prop :=
  ∀ s, Serially (.start halvesStart) (recorded halvesStart h).1 s →
    s.data = D ∧ s.pos (1, 10) = p ∧ s.pos (2, 20) = q

theorem Amounts.snoc {h : List RecItem} {it : RecItem} {D D' : Bytes} {p q p' q' : Nat} (hs : Amounts h D p q) {out : StreamOut}
    (ho : ((recorded halvesStart h).2.step it.item).1 = out)
    (hst : ∀ s s' : Common, s.data = D → s.pos (1, 10) = p → s.pos (2, 20) = q → s.Step it.item out s' →
      s'.data = D' ∧ s'.pos (1, 10) = p' ∧ s'.pos (2, 20) = q') : Amounts (h ++ [it]) D' p' q' := by
  intro s' hs'
  have e : (recorded halvesStart (h ++ [it])).1 = (recorded halvesStart h).1 ++ [(it.item, out)] := by
    rw [← ho]
    unfold recorded
    rw [Rec.items_snoc, Together.play_snoc]
  rw [e] at hs'
  obtain ⟨s, h1, h2⟩ := Serially.last hs'
  obtain ⟨k1, k2, k3⟩ := hs s h1
  exact hst s s' k1 k2 k3 h2

/-- Nothing moves. -/
theorem Amounts.rest {h : List RecItem} {it : RecItem} {D : Bytes} {p q : Nat} (hs : Amounts h D p q)
    (hst : ∀ (s s' : Common) out, s.Step it.item out s' → s'.data = s.data ∧ ∀ i, s'.pos i = s.pos i) :
    Amounts (h ++ [it]) D p q :=
  hs.snoc rfl fun s s' k1 k2 k3 hst' => by
    obtain ⟨e1, e2⟩ := hst s s' _ hst'
    rw [e1, e2, e2]; exact ⟨k1, k2, k3⟩

theorem still_pos (s : Common) (i : Sid) : ∀ j, (s.after i ⟨s.data, s.pos i, false, []⟩).pos j = s.pos j := by
  intro j
  simp only [Common.after]
  split
  · rename_i hj; rw [hj]
  · rfl

theorem halves_stands : Amounts (halves.take 6) [1, 2, 3, 4] 0 0 ∧ Amounts (halves.take 7) [1, 2, 3, 4] 2 0 ∧
    Amounts (halves.take 8) [1, 2, 3, 4] 2 2 ∧ Amounts (halves.take 12) [1, 2, 9, 8] 2 4 := by
  have s0 : Amounts (halves.take 0) [1, 2, 3, 4] 0 0 := by
    intro s hs
    obtain rfl := Serially.none hs
    exact ⟨rfl, rfl, rfl⟩
  have s1 : Amounts (halves.take 1) [1, 2, 3, 4] 0 0 := Amounts.snoc (h := halves.take 0) s0 rfl (by
    rintro s s' k1 k2 k3 ⟨_, rfl⟩
    exact ⟨k1, by simp [exBoth, opened, rawOf], by simp [k3]⟩)
  have s2 : Amounts (halves.take 2) [1, 2, 3, 4] 0 0 := Amounts.snoc (h := halves.take 1) s1 rfl (by
    rintro s s' k1 k2 k3 ⟨_, rfl⟩
    exact ⟨k1, by simp [k2], by simp [exBoth, opened, rawOf]⟩)
  have s3 : Amounts (halves.take 3) [1, 2, 3, 4] 0 0 := Amounts.rest (h := halves.take 2) s2 (by
    rintro s s' out ⟨_, rfl⟩; exact ⟨rfl, still_pos s _⟩)
  have s4 : Amounts (halves.take 4) [1, 2, 3, 4] 0 0 := Amounts.rest (h := halves.take 3) s3 (by
    rintro s s' out ⟨_, rfl⟩; exact ⟨rfl, still_pos s _⟩)
  have s5 : Amounts (halves.take 5) [1, 2, 3, 4] 0 0 := Amounts.rest (h := halves.take 4) s4 (by
    rintro s s' out ⟨_, rfl⟩; exact ⟨rfl, still_pos s _⟩)
  have s6 : Amounts (halves.take 6) [1, 2, 3, 4] 0 0 := Amounts.rest (h := halves.take 5) s5 (by
    rintro s s' out ⟨_, rfl⟩; exact ⟨rfl, still_pos s _⟩)
  have s7 : Amounts (halves.take 7) [1, 2, 3, 4] 2 0 :=
    Amounts.snoc (h := halves.take 6) (it := .did (1, 10) (.read (some 2))) s6 (out := .bytes [1, 2]) (by decide +kernel) (by
    rintro s s' k1 k2 k3 ⟨log, f, ha, rfl⟩
    simp only [Allowed] at ha
    split at ha
    · cases ha.1
    · rw [if_neg (by decide), if_neg (by decide)] at ha
      obtain ⟨_, rfl⟩ := ha
      simp [Common.after, Common.view, File.rest, k1, k2, k3])
  have s8 : Amounts (halves.take 8) [1, 2, 3, 4] 2 2 :=
    Amounts.snoc (h := halves.take 7) (it := .did (2, 20) (.seek 2 .set)) s7 (out := .num 2) (by decide +kernel) (by
    rintro s s' k1 k2 k3 ⟨log, f, ha, rfl⟩
    simp only [Allowed] at ha
    rw [if_pos (show (0 : Int) ≤ File.target (s.view (2, 20) log) 2 .set by simp [File.target])] at ha
    obtain ⟨_, rfl⟩ := ha
    simp [Common.after, Common.view, File.target, k1, k2])
  have s9 : Amounts (halves.take 9) [1, 2, 9, 8] 2 4 :=
    Amounts.snoc (h := halves.take 8) (it := .did (2, 20) (.write [9, 8])) s8 (out := .num 2) (by decide +kernel) (by
    rintro s s' k1 k2 k3 ⟨log, f, ha, rfl⟩
    simp only [Allowed] at ha
    split at ha
    · cases ha.1
    · obtain ⟨_, rfl⟩ := ha
      simp only [Common.after, Common.view, k1, k2, k3]
      decide)
  have s10 : Amounts (halves.take 10) [1, 2, 9, 8] 2 4 := Amounts.rest (h := halves.take 9) s9 (by
    rintro s s' out ⟨_, rfl⟩; exact ⟨rfl, still_pos s _⟩)
  have s11 : Amounts (halves.take 11) [1, 2, 9, 8] 2 4 := Amounts.rest (h := halves.take 10) s10 (by
    rintro s s' out ⟨_, rfl⟩; exact ⟨rfl, still_pos s _⟩)
  have s12 : Amounts (halves.take 12) [1, 2, 9, 8] 2 4 := Amounts.rest (h := halves.take 11) s11 (by
    rintro s s' out ⟨_, rfl⟩; exact ⟨rfl, still_pos s _⟩)
  exact ⟨s6, s7, s8, s12⟩

theorem at_item {h : List RecItem} {P : List RecItem → RecItem → Prop}
    (hP : ∀ n, ∀ it, h[n]? = some it → P (h.take n) it) : ∀ pre it post, h = pre ++ it :: post → P pre it := by
  intro pre it post e
  have := hP pre.length it (by rw [e]; simp)
  rwa [e, List.take_left] at this

theorem halves_orderly : AlwaysOrderly halvesStart halves := by
  obtain ⟨s6, s7, s8, s12⟩ := halves_stands
  refine at_item (P := fun pre it => ∀ s, Serially (.start halvesStart) (recorded halvesStart pre).1 s → Orderly s pre it) ?_
  intro n it hn s hs
  have hlt : n < 13 := by
    have := (List.getElem?_eq_some_iff.1 hn).1
    simpa [halves] using this
  have : n = 0 ∨ n = 1 ∨ n = 2 ∨ n = 3 ∨ n = 4 ∨ n = 5 ∨ n = 6 ∨ n = 7 ∨ n = 8 ∨ n = 9 ∨ n = 10 ∨ n = 11 ∨ n = 12 := by omega
  rcases this with rfl | rfl | rfl | rfl | rfl | rfl | rfl | rfl | rfl | rfl | rfl | rfl | rfl <;>
    (simp only [halves, List.getElem?_cons_zero, List.getElem?_cons_succ, Option.some.injEq] at hn; subst hn)
  · exact ⟨by decide, exBoth_fresh⟩
  · exact ⟨by simp [halves, itemsOf, RecItem.item, openIn, openStep], exBoth_fresh⟩
  · simp [Orderly, halves, itemsOf, RecItem.item, openIn, openStep]
  · exact ⟨by simp [halves, itemsOf, RecItem.item, openIn, openStep], rfl⟩
  · simp [Orderly, halves, itemsOf, RecItem.item, openIn, openStep]
  · exact ⟨by simp [halves, itemsOf, RecItem.item, openIn, openStep], rfl⟩
  · obtain ⟨k1, k2, k3⟩ := s6 s hs
    refine ⟨by simp [halves, itemsOf, RecItem.item, openIn, openStep], 2, Or.inr (Or.inr ⟨by decide, by rw [k2]; decide⟩), ?_⟩
    intro x _ hx _
    exact ⟨⟨(1, 10), false, 0, some 2⟩, by simp [halves, records, recStep], rfl, by simp [Covers]; omega⟩
  · obtain ⟨k1, k2, k3⟩ := s7 s hs
    exact ⟨by simp [halves, itemsOf, RecItem.item, openIn, openStep], by simp [Uses, File.target]⟩
  · obtain ⟨k1, k2, k3⟩ := s8 s hs
    refine ⟨by simp [halves, itemsOf, RecItem.item, openIn, openStep], by rw [k3, k1]; decide, ?_⟩
    intro x hx1 hx2
    rw [k3] at hx1 hx2
    simp only [List.length_cons, List.length_nil] at hx2
    exact ⟨⟨(2, 20), false, 2, some 4⟩, by simp [halves, records, recStep], rfl, rfl, by simp [Covers]; omega⟩
  · exact ⟨by simp [halves, itemsOf, RecItem.item, openIn, openStep], false, by simp [halves, records, recStep]⟩
  · simp [Orderly, halves, itemsOf, RecItem.item, openIn, openStep]
  · exact ⟨by simp [halves, itemsOf, RecItem.item, openIn, openStep], rfl⟩
  · obtain ⟨k1, k2, k3⟩ := s12 s hs
    refine ⟨by simp [halves, itemsOf, RecItem.item, openIn, openStep], 4, Or.inr (Or.inr ⟨by decide, by rw [k2]; decide⟩), ?_⟩
    intro x hx1 hx2 _
    rw [k2] at hx1
    exact ⟨⟨(1, 10), false, 2, some 4⟩, by simp [halves, records, recStep], rfl, by simp [Covers]; omega⟩

/-! ### The example with the lock system -/

instance (u : Uid) (tr : List Event) (H : List Record) : Decidable (RecHeldIn u tr H) := by
  unfold RecHeldIn; infer_instance

/-- The lock system goes on and keeps the locks. -/
def keeping (u : Uid) (H : List Record) (w : World) (tr : List Event) : List Label → Option (World × List Event)
  | [] => some (w, tr)
  | l :: ls =>
    match Verif.step w l with
    | some (w', e) => if RecHeldIn u (tr ++ e) H then keeping u H w' (tr ++ e) ls else none
    | none => none

theorem RecJoint.run {u : Uid} {h : List RecItem} {ls₀ : List Label} {w₀ : World} {tr₀ : List Event} (hj : RecJoint u h ls₀ w₀ tr₀)
    (ls : List Label) (hn : ls.all Label.noWrap = true) {w : World} {tr : List Event}
    (hr : keeping u (records h) w₀ tr₀ ls = some (w, tr)) : RecJoint u h (ls₀ ++ ls) w tr := by
  induction ls generalizing ls₀ w₀ tr₀ with
  | nil => simp only [keeping, Option.some.injEq, Prod.mk.injEq] at hr; obtain ⟨rfl, rfl⟩ := hr; simpa using hj
  | cons l ls ih =>
    simp only [List.all_cons, Bool.and_eq_true] at hn
    simp only [keeping] at hr
    split at hr
    · rename_i w' e hs
      split at hr
      · rename_i hh
        have := ih (hj.system (wellWrapped_of_noWrap hn.1 _) hs hh) hn.2 hr
        simpa using this
      · cases hr
    · cases hr

theorem RecJoint.items {u : Uid} {h : List RecItem} {ls : List Label} {w : World} {tr : List Event} (hj : RecJoint u h ls w tr)
    (its : List RecItem) (hh : ∀ n < its.length + 1, RecHeldIn u tr (records (h ++ its.take n))) : RecJoint u (h ++ its) ls w tr := by
  induction its generalizing h with
  | nil => simpa using hj
  | cons it its ih =>
    have h1 := hj.item (it := it) (by simpa using hh 1 (by simp))
    have := ih h1 (fun n hn => by simpa using hh (n + 1) (by simp only [List.length_cons]; omega))
    simpa using this

/-- What the lock system does before the two processes work, and before process 1 goes on with the second half. -/
def halvesBefore : List Label :=
  [.newProc 1, .newProc 2, .act 1 (.openS 10 3 (0, 7)), .act 2 (.openS 20 3 (0, 7))] ++ doLock 1 0 10 (some 2) 0 false ++
    doLock 2 0 20 (some 2) 2 false
def halvesAfter : List Label := doUnlock 2 20 (some 2) 2 ++ doLock 1 0 10 (some 2) 2 false

def halvesTrace : List Event :=
  [.opened 1 10 3 (0, 7) true, .opened 2 20 3 (0, 7) true, .lockReq 1 10 (0, 7) false 0 (some 2),
    .locked 1 10 (0, 7) false 0 (some 2), .lockReq 2 20 (0, 7) false 2 (some 4), .locked 2 20 (0, 7) false 2 (some 4),
    .unlocked 2 20 (0, 7) 2 (some 4), .lockReq 1 10 (0, 7) false 2 (some 4), .locked 1 10 (0, 7) false 2 (some 4)]

theorem halves_joint : ∃ ls w, RecJoint (0, 7) halves ls w halvesTrace := by
  have e1 : (keeping (0, 7) (records []) World.init [] halvesBefore).map Prod.snd = some (halvesTrace.take 6) := by decide
  have e2 : ((keeping (0, 7) (records []) World.init [] halvesBefore).bind (fun x => keeping (0, 7)
      (records (halves.take 10)) x.1 x.2 halvesAfter)).map Prod.snd = some halvesTrace := by decide
  cases hr1 : keeping (0, 7) (records []) World.init [] halvesBefore with
  | none => rw [hr1] at e1; cases e1
  | some x =>
    rw [hr1] at e1 e2
    simp only [Option.map_some, Option.some.injEq] at e1
    simp only [Option.bind_some] at e2
    cases hr2 : keeping (0, 7) (records (halves.take 10)) x.1 x.2 halvesAfter with
    | none => rw [hr2] at e2; cases e2
    | some y =>
      rw [hr2] at e2
      simp only [Option.map_some, Option.some.injEq] at e2
      have j0 := RecJoint.run .init halvesBefore (by decide) hr1
      have j1 := RecJoint.items j0 (halves.take 10) (by rw [e1]; decide)
      have j2 := RecJoint.run j1 halvesAfter (by decide) hr2
      have j3 := RecJoint.items j2 (halves.drop 10) (by rw [e2]; decide)
      rw [e2] at j3
      exact ⟨_, _, j3⟩

-- the two processes on the lock system: both locks are held at the same time, and process 1 does not get the bytes it has
-- read ahead
example : ∃ ls w s, RecJoint (0, 7) halves ls w halvesTrace ∧ AlwaysOrderly halvesStart halves ∧
    (∀ i a e, RecItem.granted i true a e ∉ halves) ∧
    (∀ tr₁ tr₂, halvesTrace = tr₁ ++ tr₂ → NoSharedOverlap (heldOf tr₁ ++ requestedOf tr₁)) ∧
    (records (halves.take 6)).length = 2 ∧
    ((recorded halvesStart halves).1.map Prod.snd).getLast? = some (.bytes [9, 8]) ∧
    Serially (.start halvesStart) (recorded halvesStart halves).1 s := by
  obtain ⟨ls, w, hj⟩ := halves_joint
  have hx : ∀ i a e, RecItem.granted i true a e ∉ halves := by simp [halves]
  obtain ⟨s, hs, _⟩ := C111_exclusive_partial hj halves_orderly hx
  exact ⟨ls, w, s, hj, halves_orderly, hx,
    prefixes (P := fun t => NoSharedOverlap (heldOf t ++ requestedOf t)) (by decide), rfl, by decide +kernel, hs⟩

/-! ## Files that grow -/

/-- Process 1 locks the second byte of an empty file and writes it, process 2 locks the first byte and reads it. -/
def growth : List RecItem :=
  [.opened (1, 10) exWriter, .opened (2, 20) exReader, .ask (1, 10), .granted (1, 10) false 1 (some 2),
    .did (1, 10) (.seek 1 .set), .did (1, 10) (.write [65]), .ask (2, 20), .granted (2, 20) false 0 (some 1),
    .did (2, 20) (.read (some 1))]

/-- C111 is false of calls that change the size of the file, although the bytes they write are locked exclusively: the
size belongs to nobody, and it changes only when the buffer is flushed. -/
theorem C111_extend_refuted : (∀ n ≤ 9, RecExclusion (records (growth.take n))) ∧
    Owns (records (growth.take 5)) (1, 10) 1 ∧ Owns (records (growth.take 8)) (2, 20) 0 ∧
    ((recorded [] growth).1.map Prod.snd).getLast? = some (.bytes []) ∧
    ¬ ∃ s, Serially (.start []) (recorded [] growth).1 s := by
  refine ⟨?_, ⟨_, List.mem_cons_self, rfl, rfl, by simp [Covers]⟩,
    ⟨⟨(2, 20), false, 0, some 1⟩, by simp [growth, records, recStep], rfl, rfl, by simp [Covers]⟩, by decide +kernel, ?_⟩
  · intro n hn
    have : n = 0 ∨ n = 1 ∨ n = 2 ∨ n = 3 ∨ n = 4 ∨ n = 5 ∨ n = 6 ∨ n = 7 ∨ n = 8 ∨ n = 9 := by omega
    have hno : ¬ Meet 1 (some 2) 0 (some 1) := by rintro ⟨z, z1, z2⟩; simp [Covers] at z1 z2; omega
    have hno' : ¬ Meet 0 (some 1) 1 (some 2) := by rintro ⟨z, z1, z2⟩; simp [Covers] at z1 z2; omega
    rcases this with rfl | rfl | rfl | rfl | rfl | rfl | rfl | rfl | rfl | rfl <;>
      simp [growth, RecExclusion, records, recStep, hno, hno']
  · rintro ⟨s9, h9⟩
    have hp : (recorded [] growth).1 = (itemsOf growth).zip
        [.done, .done, .done, .done, .num 1, .num 1, .done, .done, .bytes []] := by
      have : (recorded [] growth).1.map Prod.snd = [.done, .done, .done, .done, .num 1, .num 1, .done, .done, .bytes []] := by
        decide +kernel
      rw [← this]
      conv => rhs; arg 1; rw [← play_items ⟨[], fun _ => none⟩ (itemsOf growth)]
      rw [show (Together.play ⟨[], fun _ => none⟩ (itemsOf growth)).1 = (recorded [] growth).1 from rfl, List.zip_map', List.map_id'']
      intro x; rfl
    rw [hp] at h9
    obtain ⟨s8, h8, t9⟩ := Serially.last (tr := ((itemsOf growth).take 8).zip [.done, .done, .done, .done, .num 1, .num 1, .done, .done]) h9
    obtain ⟨s7, h7, t8⟩ := Serially.last (tr := ((itemsOf growth).take 7).zip [.done, .done, .done, .done, .num 1, .num 1, .done]) h8
    obtain ⟨s6, h6, t7⟩ := Serially.last (tr := ((itemsOf growth).take 6).zip [.done, .done, .done, .done, .num 1, .num 1]) h7
    obtain ⟨s5, h5, t6⟩ := Serially.last (tr := ((itemsOf growth).take 5).zip [.done, .done, .done, .done, .num 1]) h6
    obtain ⟨s4, h4, t5⟩ := Serially.last (tr := ((itemsOf growth).take 4).zip [.done, .done, .done, .done]) h5
    obtain ⟨s3, h3, t4⟩ := Serially.last (tr := ((itemsOf growth).take 3).zip [.done, .done, .done]) h4
    obtain ⟨s2, h2, t3⟩ := Serially.last (tr := ((itemsOf growth).take 2).zip [.done, .done]) h3
    obtain ⟨s1, h1, t2⟩ := Serially.last (tr := ((itemsOf growth).take 1).zip [.done]) h2
    obtain ⟨s0, h0, t1⟩ := Serially.last (tr := []) h1
    obtain rfl := Serially.none h0
    obtain ⟨_, rfl⟩ := t1
    obtain ⟨_, rfl⟩ := t2
    obtain ⟨_, rfl⟩ := t3
    obtain ⟨_, rfl⟩ := t4
    obtain ⟨_, f5, t5, rfl⟩ := t5
    obtain ⟨_, f6, t6, rfl⟩ := t6
    obtain ⟨_, rfl⟩ := t7
    obtain ⟨_, rfl⟩ := t8
    obtain ⟨_, f9, t9, rfl⟩ := t9
    simp [Allowed, File.target, Common.view, Common.after, Common.start, exWriter, exReader, opened, rawOf] at t5
    subst t5
    simp [Allowed, Common.view, Common.after, Common.start, exWriter, exReader, opened, rawOf, put] at t6
    subst t6
    simp [Allowed, Common.view, Common.after, Common.start, exWriter, exReader, opened, rawOf, File.rest] at t9

end Verif.Props
