import Verif.Lemmas.Together
import Verif.Props.System
import Verif.Props.Buffered

/-!
# C75: critical sections on several buffered streams
-/

set_option autoImplicit false

namespace Verif.Props

open Verif Verif.Spec

/-- The file, before any stream is opened. -/
def beforehand (d : Bytes) : Together := ⟨d, fun _ => none⟩

/-- C75 (partial): programs that use a stream only while it holds a lock on the file see one byte array with a position
for each stream: whatever is read, by whichever stream, is what was last written by whichever stream; and when nobody
holds an exclusive lock, the array is the file.  Missing: what comes after a call that the code gets wrong even on one
stream (`Common.Unsafe`, see C23), and `with` blocks that do not flush (`C75_with_refuted`). -/
theorem C75_serial_partial {h : List Item} (hd : Disciplined h) (d : Bytes) :
    ∃ pre post s, h = pre ++ post ∧ Serially (.start d) ((beforehand d).play pre).1 s ∧
      ((∀ i, (i, false) ∉ holding pre) → ((beforehand d).play pre).2.file = s.data) ∧
      (post = [] ∨ ∃ it rest, post = it :: rest ∧ s.Unsafe it) := by
  obtain ⟨pre, post, s, e1, _, e2, e3, e4⟩ := InTurn.history hd d
  exact ⟨pre, post, s, e1, e2, e3.file, e4⟩

/-- The kinds of the streams of the reference are those that were opened. -/
theorem Serially.kinds {d : Bytes} {tr : List (Item × StreamOut)} {s : Common} (h : Serially (.start d) tr s)
    (hk : ∀ i b out, (Item.opened i b, out) ∈ tr → b.kind ≠ .random) (i : Sid) : s.kind i ≠ .random := by
  generalize hs : Common.start d = s₀ at h
  induction h with
  | nil => subst hs; simp [Common.start]
  | @snoc s' s'' tr it out _ hst ih =>
    have ih' := ih (fun i b out hm => hk i b out (List.mem_append_left _ hm))
    cases it with
    | opened j b =>
      obtain ⟨_, rfl⟩ := hst
      dsimp only
      split
      · exact hk j b out (by simp)
      · exact ih'
    | did j op => obtain ⟨_, _, _, rfl⟩ := hst; exact ih'
    | ask j => obtain ⟨_, rfl⟩ := hst; exact ih'
    | granted j sh => obtain ⟨_, rfl⟩ := hst; exact ih'
    | unlock j => obtain ⟨_, rfl⟩ := hst; exact ih'
    | exit j => obtain ⟨_, rfl⟩ := hst; exact ih'
    | close j => obtain ⟨_, rfl⟩ := hst; exact ih'
    | gone p => obtain ⟨_, rfl⟩ := hst; exact ih'

theorem play_items (w : Together) (h : List Item) : (w.play h).1.map Prod.fst = h := by
  induction h generalizing w with
  | nil => rfl
  | cons it its ih => simp only [Together.play, List.map_cons, ih]

/-- C75 without exception, when every stream is opened for reading only or for writing only. -/
theorem C75_one_way {h : List Item} (hd : Disciplined h) (d : Bytes)
    (hk : ∀ i b, Item.opened i b ∈ h → b.kind ≠ .random) :
    ∃ s, Serially (.start d) ((beforehand d).play h).1 s ∧
      ((∀ i, (i, false) ∉ holding h) → ((beforehand d).play h).2.file = s.data) := by
  obtain ⟨pre, post, s, rfl, e1, e2, e3⟩ := C75_serial_partial hd d
  rcases e3 with rfl | ⟨it, rest, rfl, e3⟩
  · rw [List.append_nil]; exact ⟨s, e1, e2⟩
  · have hkk := Serially.kinds e1 (fun i b out hm => hk i b (List.mem_append_left _ (by
      rw [← play_items (beforehand d) pre]; exact List.mem_map_of_mem hm)))
    cases it with
    | did i op =>
      cases op with
      | truncate n => exact absurd e3.1 (hkk i)
      | seek o w => exact absurd e3.1 (hkk i)
      | _ => exact e3.elim
    | _ => exact e3.elim

/-- The two items of a `lock_file` call that is not disturbed are the method `lock_file`. -/
theorem ask_granted {w : Together} {i : Sid} {b b' : Buf} (hb : w.bufs i = some b)
    (hr : Buf.resetBuffers (Together.load b w.file) = (.ok (), b')) (sh : Bool) :
    (w.step (.ask i)).2.step (.granted i sh) =
      (.ofUnit (Buf.lockFile b'.raw.data (Together.load b w.file)).1,
        (w.step (.ask i)).2.keep i (Buf.lockFile b'.raw.data (Together.load b w.file)).2) := by
  have h1 : (w.step (.ask i)).2 = w.keep i b' := by simp only [Together.step, Together.on, hb, hr]
  have h2 : Buf.lockFile b'.raw.data (Together.load b w.file) = Buf.onRaw (Raw.lockFile b'.raw.data) b' := PyM.bind_ok hr
  have h3 : (w.keep i b').bufs i = some b' := by simp [Together.keep]
  rw [h1, h2]
  simp only [Together.step, Together.on, h3]
  rfl

/-! ## With the system that grants the locks -/

theorem Joint.reach {u : Uid} {h : List Item} {ls : List Label} {w : World} {tr : List Event} (hj : Joint u h ls w tr) :
    Reach ls w tr := by
  induction hj with
  | init => exact .init
  | system _ hw hs _ ih => exact ih.step hw hs
  | item _ _ _ ih => exact ih

theorem Joint.disciplined {u : Uid} {h : List Item} {ls : List Label} {w : World} {tr : List Event} (hj : Joint u h ls w tr)
    (hx : ∀ h₁ h₂ w' ls' tr₁ tr₂, h = h₁ ++ h₂ → tr = tr₁ ++ tr₂ → Reach ls' w' tr₁ → HeldIn u tr₁ (holding h₁) →
      Exclusion (holding h₁)) : Disciplined h := by
  induction hj with
  | init => exact .nil
  | @system h ls w w' tr e l hj _ _ _ ih =>
    exact ih (fun h₁ h₂ w' ls' tr₁ tr₂ e1 e2 => hx h₁ h₂ w' ls' tr₁ (tr₂ ++ e) e1 (by rw [e2, List.append_assoc]))
  | @item h ls w tr it hj hp hh ih =>
    refine .snoc (ih (fun h₁ h₂ w' ls' tr₁ tr₂ e1 e2 => hx h₁ (h₂ ++ [it]) w' ls' tr₁ tr₂ (by rw [e1, List.append_assoc])
      e2)) hp ?_
    exact hx _ [] w ls tr [] (by simp) (by simp) (Joint.reach hj) hh

theorem holding_modes {h : List Item} (hx : ∀ i, Item.granted i true ∉ h) : ∀ a ∈ holding h, a.2 = false := by
  unfold holding
  suffices ∀ H : List (Sid × Bool), (∀ a ∈ H, a.2 = false) → ∀ a ∈ h.foldl holdStep H, a.2 = false from this [] nofun
  induction h with
  | nil => exact fun H hH => hH
  | cons it its ih =>
    intro H hH
    refine ih (fun i hi => hx i (List.mem_cons_of_mem _ hi)) _ ?_
    cases it with
    | granted i sh =>
      cases sh with
      | true => exact absurd List.mem_cons_self (hx i)
      | false =>
        intro a ha
        simp only [holdStep, List.mem_append, List.mem_singleton] at ha
        rcases ha with ha | rfl
        · exact hH a ha
        · rfl
    | opened i b => exact hH
    | ask i => exact hH
    | did i op => exact hH
    | unlock i => exact fun a ha => hH a (List.mem_filter.1 ha).1
    | exit i => exact fun a ha => hH a (List.mem_filter.1 ha).1
    | close i => exact fun a ha => hH a (List.mem_filter.1 ha).1
    | gone p => exact fun a ha => hH a (List.mem_filter.1 ha).1

/-- C75, together with the processes, threads, registries and kernel that grant the locks: any interleaving of
disciplined programs with exclusive locks, in any number of processes, behaves as one byte array.  (Up to the first call
that the code gets wrong on one stream, as in `C75_serial_partial`.) -/
theorem C75_exclusive_partial {u : Uid} {h : List Item} {ls : List Label} {w : World} {tr : List Event} (hj : Joint u h ls w tr)
    (hx : ∀ i, Item.granted i true ∉ h) (d : Bytes) :
    ∃ pre post s, h = pre ++ post ∧ Serially (.start d) ((beforehand d).play pre).1 s ∧
      ((∀ i, (i, false) ∉ holding pre) → ((beforehand d).play pre).2.file = s.data) ∧
      (post = [] ∨ ∃ it rest, post = it :: rest ∧ s.Unsafe it) := by
  refine C75_serial_partial (Joint.disciplined hj ?_) d
  intro h₁ h₂ w' ls' tr₁ tr₂ e1 _ hr hh a ha b hb hne
  exfalso
  have hm := holding_modes (h := h₁) (fun i hi => hx i (by rw [e1]; exact List.mem_append_left _ hi))
  obtain ⟨x, x1, x2, x3, x4, x5⟩ := hh a ha
  obtain ⟨y, y1, y2, y3, y4, y5⟩ := hh b hb
  exact C01_exclusive hr x1 y1 (x4.trans (hm a ha)) (y4.trans (hm b hb)) (x2.trans y2.symm)
    (by rw [x3, y3]; exact hne) ⟨0, x5, y5⟩

/-- C75 with shared and exclusive locks, as long as no two streams of one process hold or request overlapping shared locks
(see C02). -/
theorem C75_shared_partial {u : Uid} {h : List Item} {ls : List Label} {w : World} {tr : List Event} (hj : Joint u h ls w tr)
    (hc : ∀ tr₁ tr₂, tr = tr₁ ++ tr₂ → NoSharedOverlap (heldOf tr₁ ++ requestedOf tr₁)) (d : Bytes) :
    ∃ pre post s, h = pre ++ post ∧ Serially (.start d) ((beforehand d).play pre).1 s ∧
      ((∀ i, (i, false) ∉ holding pre) → ((beforehand d).play pre).2.file = s.data) ∧
      (post = [] ∨ ∃ it rest, post = it :: rest ∧ s.Unsafe it) := by
  refine C75_serial_partial (Joint.disciplined hj ?_) d
  intro h₁ h₂ w' ls' tr₁ tr₂ _ e2 hr hh a ha b hb hne
  have hc' : ∀ t₁ t₂, tr₁ = t₁ ++ t₂ → NoSharedOverlap (heldOf t₁ ++ requestedOf t₁) :=
    fun t₁ t₂ e => hc t₁ (t₂ ++ tr₂) (by rw [e2, e, List.append_assoc])
  obtain ⟨x, x1, x2, x3, x4, x5⟩ := hh a ha
  obtain ⟨y, y1, y2, y3, y4, y5⟩ := hh b hb
  have hs : (x.pid, x.sid) ≠ (y.pid, y.sid) := by rw [x3, y3]; exact hne
  have hs' : (y.pid, y.sid) ≠ (x.pid, x.sid) := fun he => hs he.symm
  have hu : x.uid = y.uid := x2.trans y2.symm
  have hm : Meet x.start x.stop y.start y.stop := ⟨0, x5, y5⟩
  have hm' : Meet y.start y.stop x.start x.stop := ⟨0, y5, x5⟩
  rw [← x4, ← y4]
  cases hxs : x.shared <;> cases hys : y.shared
  · exact absurd hm (C01_exclusive hr x1 y1 hxs hys hu hs)
  · exact absurd hm' (C02_shared_excludes_writer_partial hr hc' y1 x1 hys hxs hu.symm hs')
  · exact absurd hm (C02_shared_excludes_writer_partial hr hc' x1 y1 hxs hys hu hs)
  · exact ⟨rfl, rfl⟩

/-! ## Examples -/

/-- A writer and a reader, on the same file. -/
def exWriter : Buf := opened .writer 8 [] []
def exReader : Buf := opened .reader 8 [] []

theorem exWriter_fresh : FreshStream exWriter :=
  ⟨⟨_, _, _, (opened_ok .writer 8 (by decide) [] []).1⟩, rfl, rfl, rfl, by simp [Blocking, exWriter, opened, rawOf]⟩

theorem exReader_fresh : FreshStream exReader :=
  ⟨⟨_, _, _, (opened_ok .reader 8 (by decide) [] []).1⟩, rfl, rfl, rfl, by simp [Blocking, exReader, opened, rawOf]⟩

/-- Process 1 writes in a critical section that ends in the given way, then process 2 reads in another one. -/
def sections (leave : Sid → Item) : List Item :=
  [.opened (1, 10) exWriter, .opened (2, 20) exReader, .ask (1, 10), .granted (1, 10) false, .did (1, 10) (.write [65, 66]),
    leave (1, 10), .ask (2, 20), .granted (2, 20) false, .did (2, 20) (.read none)]

theorem sections_start : Disciplined ((sections .unlock).take 5) := by
  have h1 : Disciplined [.opened (1, 10) exWriter] := .snoc (h := []) .nil ⟨by simp [openIn], exWriter_fresh⟩ (by simp [Exclusion, holding, holdStep])
  have h2 : Disciplined [.opened (1, 10) exWriter, .opened (2, 20) exReader] :=
    .snoc (h := [_]) h1 ⟨by simp [openIn, openStep], exReader_fresh⟩ (by simp [Exclusion, holding, holdStep])
  have h3 : Disciplined [.opened (1, 10) exWriter, .opened (2, 20) exReader, .ask (1, 10)] :=
    .snoc (h := [_, _]) h2 ⟨by simp [openIn, openStep], by simp [holding, holdStep]⟩ (by simp [Exclusion, holding, holdStep])
  have h4 : Disciplined [.opened (1, 10) exWriter, .opened (2, 20) exReader, .ask (1, 10), .granted (1, 10) false] :=
    .snoc (h := [_, _, _]) h3 ⟨by simp [openIn, openStep], rfl⟩ (by simp [Exclusion, holding, holdStep])
  exact .snoc (h := [_, _, _, _]) h4 (Or.inr ⟨trivial, by simp [holding, holdStep]⟩) (by simp [Exclusion, holding, holdStep])

theorem sections_disciplined : Disciplined (sections .unlock) := by
  have h6 : Disciplined ((sections .unlock).take 6) :=
    .snoc (h := (sections .unlock).take 5) sections_start ⟨false, by simp [sections, holding, holdStep]⟩
      (by simp [sections, Exclusion, holding, holdStep])
  have h7 : Disciplined ((sections .unlock).take 7) :=
    .snoc (h := (sections .unlock).take 6) h6 ⟨by simp [sections, openIn, openStep], by simp [sections, holding, holdStep]⟩
      (by simp [sections, Exclusion, holding, holdStep])
  have h8 : Disciplined ((sections .unlock).take 8) :=
    .snoc (h := (sections .unlock).take 7) h7 ⟨by simp [sections, openIn, openStep], rfl⟩
      (by simp [sections, Exclusion, holding, holdStep])
  exact .snoc (h := (sections .unlock).take 8) h8 (Or.inl ⟨trivial, false, by simp [sections, holding, holdStep]⟩)
      (by simp [sections, Exclusion, holding, holdStep])

-- the reader gets what the writer wrote
example : (((beforehand []).play (sections .unlock)).1.map Prod.snd).getLast? = some (.bytes [65, 66]) ∧
    ((beforehand []).play (sections .unlock)).2.file = [65, 66] ∧
    ∃ s, Serially (.start []) ((beforehand []).play (sections .unlock)).1 s :=
  ⟨by decide +kernel, by decide +kernel, (C75_one_way sections_disciplined [] (by
    intro i b hb
    simp only [sections, List.mem_cons, Item.opened.injEq, List.not_mem_nil, or_false, reduceCtorEq] at hb
    rcases hb with ⟨_, rfl⟩ | ⟨_, rfl⟩ <;> nofun)).imp (fun _ h => h.1)⟩

theorem Serially.last {s s'' : Common} {tr : List (Item × StreamOut)} {it : Item} {out : StreamOut}
    (h : Serially s (tr ++ [(it, out)]) s'') : ∃ s', Serially s tr s' ∧ s'.Step it out s'' := by
  generalize hl : tr ++ [(it, out)] = l at h
  cases h with
  | nil => simp at hl
  | snoc h1 h2 =>
    obtain ⟨e1, e2⟩ := List.append_inj' hl rfl
    cases e2; subst e1
    exact ⟨_, h1, h2⟩

theorem Serially.none {s s' : Common} (h : Serially s [] s') : s' = s := by
  generalize hl : ([] : List (Item × StreamOut)) = l at h
  cases h with
  | nil => rfl
  | snoc => simp at hl

/-- C75 is false of `with f.lock_file():` blocks: the lock is given up while the bytes written are still in the buffer, so
that the next critical section does not see them.  Every program here is disciplined, except that the block of process 1
does not end with a `flush`. -/
theorem C75_with_refuted : Disciplined ((sections .exit).take 5) ∧ ((1, 10), false) ∈ holding ((sections .exit).take 5) ∧
    (∀ n ≤ 9, Exclusion (holding ((sections .exit).take n))) ∧
    (((beforehand []).play (sections .exit)).1.map Prod.snd).getLast? = some (.bytes []) ∧
    ¬ ∃ s, Serially (.start []) ((beforehand []).play (sections .exit)).1 s := by
  refine ⟨sections_start, by simp [sections, holding, holdStep], ?_, by decide +kernel, ?_⟩
  · intro n hn
    have : n = 0 ∨ n = 1 ∨ n = 2 ∨ n = 3 ∨ n = 4 ∨ n = 5 ∨ n = 6 ∨ n = 7 ∨ n = 8 ∨ n = 9 := by omega
    rcases this with rfl | rfl | rfl | rfl | rfl | rfl | rfl | rfl | rfl | rfl <;>
      simp [sections, Exclusion, holding, holdStep]
  · rintro ⟨s9, h9⟩
    have hp : ((beforehand []).play (sections .exit)).1 = (sections .exit).zip
        [.done, .done, .done, .done, .num 2, .done, .done, .done, .bytes []] := by
      have : ((beforehand []).play (sections .exit)).1.map Prod.snd =
        [.done, .done, .done, .done, .num 2, .done, .done, .done, .bytes []] := by decide +kernel
      rw [← this]
      conv => rhs; arg 1; rw [← play_items (beforehand []) (sections .exit)]
      rw [List.zip_map', List.map_id'']
      intro x; rfl
    rw [hp] at h9
    obtain ⟨s8, h8, t9⟩ := Serially.last (tr := ((sections .exit).take 8).zip [.done, .done, .done, .done, .num 2, .done, .done, .done]) h9
    obtain ⟨s7, h7, t8⟩ := Serially.last (tr := ((sections .exit).take 7).zip [.done, .done, .done, .done, .num 2, .done, .done]) h8
    obtain ⟨s6, h6, t7⟩ := Serially.last (tr := ((sections .exit).take 6).zip [.done, .done, .done, .done, .num 2, .done]) h7
    obtain ⟨s5, h5, t6⟩ := Serially.last (tr := ((sections .exit).take 5).zip [.done, .done, .done, .done, .num 2]) h6
    obtain ⟨s4, h4, t5⟩ := Serially.last (tr := ((sections .exit).take 4).zip [.done, .done, .done, .done]) h5
    obtain ⟨s3, h3, t4⟩ := Serially.last (tr := ((sections .exit).take 3).zip [.done, .done, .done]) h4
    obtain ⟨s2, h2, t3⟩ := Serially.last (tr := ((sections .exit).take 2).zip [.done, .done]) h3
    obtain ⟨s1, h1, t2⟩ := Serially.last (tr := ((sections .exit).take 1).zip [.done]) h2
    obtain ⟨s0, h0, t1⟩ := Serially.last (tr := []) h1
    obtain rfl := Serially.none h0
    obtain ⟨_, rfl⟩ := t1
    obtain ⟨_, rfl⟩ := t2
    obtain ⟨_, rfl⟩ := t3
    obtain ⟨_, rfl⟩ := t4
    obtain ⟨_, f5, t5, rfl⟩ := t5
    obtain ⟨_, rfl⟩ := t6
    obtain ⟨_, rfl⟩ := t7
    obtain ⟨_, rfl⟩ := t8
    obtain ⟨_, f9, t9, rfl⟩ := t9
    simp [Allowed, Common.view, Common.after, Common.start, exWriter, exReader, opened, rawOf, put] at t5
    obtain ⟨_, rfl⟩ := t5
    simp [Allowed, Common.view, Common.after, Common.start, exWriter, exReader, opened, rawOf, put, File.rest] at t9

/-- The lock system goes on while no program relies on a lock. -/
theorem Joint.run {u : Uid} {h : List Item} {ls₀ : List Label} {w₀ : World} {tr₀ : List Event} (hj : Joint u h ls₀ w₀ tr₀)
    (hh : holding h = []) (ls : List Label) (hn : ls.all Label.noWrap = true) {w : World} {tr : List Event}
    (hr : runFrom w₀ tr₀ ls = some (w, tr)) : Joint u h (ls₀ ++ ls) w tr := by
  induction ls generalizing ls₀ w₀ tr₀ with
  | nil => simp only [runFrom, Option.some.injEq, Prod.mk.injEq] at hr; obtain ⟨rfl, rfl⟩ := hr; simpa using hj
  | cons l ls ih =>
    simp only [List.all_cons, Bool.and_eq_true] at hn
    simp only [runFrom] at hr
    split at hr
    · rename_i w' e hs
      have := ih (hj.system (wellWrapped_of_noWrap hn.1 _) hs (by rw [hh]; nofun)) hn.2 hr
      simpa using this
    · cases hr

/-- What the lock system does before the first and before the second critical section. -/
def before₁ : List Label :=
  [.newProc 1, .newProc 2, .act 1 (.openS 10 3 (0, 7)), .act 2 (.openS 20 3 (0, 7))] ++ doLock 1 0 10 none 0 false
def before₂ : List Label := doUnlock 1 10 none 0 ++ doLock 2 0 20 none 0 false

/-- The trace of the lock system. -/
def sectionsTrace : List Event :=
  [.opened 1 10 3 (0, 7) true, .opened 2 20 3 (0, 7) true, .lockReq 1 10 (0, 7) false 0 none,
    .locked 1 10 (0, 7) false 0 none, .unlocked 1 10 (0, 7) 0 none, .lockReq 2 20 (0, 7) false 0 none,
    .locked 2 20 (0, 7) false 0 none]

/-- The two critical sections with the lock system. -/
theorem sections_joint : ∃ ls w, Joint (0, 7) (sections .unlock) ls w sectionsTrace := by
  have e1 : (Verif.run before₁).map (fun x => heldOf x.2) = some [⟨1, 10, (0, 7), false, 0, none⟩] := by decide
  have e2 : ((Verif.run before₁).bind (fun x => runFrom x.1 x.2 before₂)).map (fun x => heldOf x.2) =
      some [⟨2, 20, (0, 7), false, 0, none⟩] := by decide
  have e3 : ((Verif.run before₁).bind (fun x => runFrom x.1 x.2 before₂)).map Prod.snd = some sectionsTrace := by decide
  cases hr1 : Verif.run before₁ with
  | none => rw [hr1] at e1; cases e1
  | some x =>
    rw [hr1] at e1 e2 e3
    simp only [Option.map_some, Option.some.injEq] at e1
    simp only [Option.bind_some] at e2 e3
    cases hr2 : runFrom x.1 x.2 before₂ with
    | none => rw [hr2] at e2; cases e2
    | some y =>
      rw [hr2] at e2 e3
      simp only [Option.map_some, Option.some.injEq] at e2 e3
      have none (tr : List Event) (h : List Item) (hh : holding h = []) : HeldIn (0, 7) tr (holding h) := by
        rw [hh]; nofun
      have one (h : List Item) (hh : holding h = [((1, 10), false)]) : HeldIn (0, 7) x.2 (holding h) := by
        rw [hh]
        intro a ha
        rw [List.mem_singleton] at ha
        subst ha
        exact ⟨_, by rw [e1]; exact List.mem_cons_self, rfl, rfl, rfl, by simp [Covers]⟩
      have two (h : List Item) (hh : holding h = [((2, 20), false)]) : HeldIn (0, 7) y.2 (holding h) := by
        rw [hh]
        intro a ha
        rw [List.mem_singleton] at ha
        subst ha
        exact ⟨_, by rw [e2]; exact List.mem_cons_self, rfl, rfl, rfl, by simp [Covers]⟩
      have j0 : Joint (0, 7) [] _ x.1 x.2 := Joint.run .init rfl before₁ (by decide) hr1
      have j1 : Joint (0, 7) ((sections .unlock).take 1) _ x.1 x.2 :=
        .item (h := []) j0 ⟨by simp [openIn], exWriter_fresh⟩ (none _ _ rfl)
      have j2 : Joint (0, 7) ((sections .unlock).take 2) _ x.1 x.2 :=
        .item (h := (sections .unlock).take 1) j1 ⟨by simp [sections, openIn, openStep], exReader_fresh⟩ (none _ _ rfl)
      have j3 : Joint (0, 7) ((sections .unlock).take 3) _ x.1 x.2 :=
        .item (h := (sections .unlock).take 2) j2 ⟨by simp [sections, openIn, openStep], by simp [sections, holding, holdStep]⟩
          (none _ _ rfl)
      have j4 : Joint (0, 7) ((sections .unlock).take 4) _ x.1 x.2 :=
        .item (h := (sections .unlock).take 3) j3 ⟨by simp [sections, openIn, openStep], rfl⟩ (one _ rfl)
      have j5 : Joint (0, 7) ((sections .unlock).take 5) _ x.1 x.2 :=
        .item (h := (sections .unlock).take 4) j4 (Or.inr ⟨trivial, by simp [sections, holding, holdStep]⟩) (one _ rfl)
      have j6 : Joint (0, 7) ((sections .unlock).take 6) _ x.1 x.2 :=
        .item (h := (sections .unlock).take 5) j5 ⟨false, by simp [sections, holding, holdStep]⟩ (none _ _ rfl)
      have j6' : Joint (0, 7) ((sections .unlock).take 6) _ y.1 y.2 := Joint.run j6 rfl before₂ (by decide) hr2
      have j7 : Joint (0, 7) ((sections .unlock).take 7) _ y.1 y.2 :=
        .item (h := (sections .unlock).take 6) j6' ⟨by simp [sections, openIn, openStep], by simp [sections, holding, holdStep]⟩
          (none _ _ rfl)
      have j8 : Joint (0, 7) ((sections .unlock).take 8) _ y.1 y.2 :=
        .item (h := (sections .unlock).take 7) j7 ⟨by simp [sections, openIn, openStep], rfl⟩ (two _ rfl)
      rw [← e3]
      exact ⟨_, y.1, .item (h := (sections .unlock).take 8) j8
        (Or.inl ⟨trivial, false, by simp [sections, holding, holdStep]⟩) (two _ rfl)⟩

-- two processes with their critical sections, on the lock system
example : ∃ ls w s, Joint (0, 7) (sections .unlock) ls w sectionsTrace ∧ (∀ i, Item.granted i true ∉ sections .unlock) ∧
    (∀ tr₁ tr₂, sectionsTrace = tr₁ ++ tr₂ → NoSharedOverlap (heldOf tr₁ ++ requestedOf tr₁)) ∧
    Serially (.start []) ((beforehand []).play (sections .unlock)).1 s := by
  obtain ⟨ls, w, hj⟩ := sections_joint
  obtain ⟨s, hs⟩ := C75_one_way sections_disciplined [] (by
    intro i b hb
    simp only [sections, List.mem_cons, Item.opened.injEq, List.not_mem_nil, or_false, reduceCtorEq] at hb
    rcases hb with ⟨_, rfl⟩ | ⟨_, rfl⟩ <;> nofun)
  exact ⟨ls, w, s, hj, by simp [sections],
    prefixes (P := fun t => NoSharedOverlap (heldOf t ++ requestedOf t)) (by decide), hs.1⟩

end Verif.Props
