import Verif.Spec.Updating
import Verif.Props.Following
import Verif.Props.Records

/-!
# C127: read, compute and write back
-/

set_option autoImplicit false

namespace Verif.Props

open Verif Verif.Spec

theorem stageOf_snoc (i : Sid) (tr : List (Item × StreamOut)) (e : Item × StreamOut) :
    stageOf i (tr ++ [e]) = (stageOf i tr).next i e := by simp [stageOf]

theorem contentOf_done (f : Sid → Nat → Bytes → Bytes) (d : Bytes) (l done : List Sid) :
    (l.foldl (fun s i => (s.1 ++ [i], f i (s.1.count i) s.2)) (done, d)).1 = done ++ l := by
  induction l generalizing done d with
  | nil => simp
  | cons i l ih => simp [ih]

theorem contentOf_snoc (f : Sid → Nat → Bytes → Bytes) (d : Bytes) (h : List Item) (it : Item) :
    contentOf f d (h ++ [it]) = match completes it with
      | none => contentOf f d h
      | some i => f i (times i h) (contentOf f d h) := by
  unfold contentOf times
  rw [List.filterMap_append]
  cases he : completes it with
  | none => simp [List.filterMap, he]
  | some i => simp [List.filterMap, he, contentOf_done]

theorem times_snoc (i : Sid) (h : List Item) {it : Item} (he : completes it = none) : times i (h ++ [it]) = times i h := by
  unfold times
  rw [List.filterMap_append]
  simp [List.filterMap, he]

theorem UpRules.last {f : Sid → Nat → Bytes → Bytes} {tr : List (Item × StreamOut)} {it : Item} {out : StreamOut}
    (h : UpRules f (tr ++ [(it, out)])) : UpRules f tr ∧ UpRule f tr it :=
  ⟨fun pre it' out' post e => h pre it' out' (post ++ [(it, out)]) (by rw [e]; simp), h tr it out [] rfl⟩

theorem resizeTo_put (x y : Bytes) : resizeTo (put x 0 y) y.length = y ∧ y.length ≤ (put x 0 y).length := by
  by_cases hy : y = []
  · subst hy; simp [resizeTo]
  · have hlen : y.length ≤ (put x 0 y).length := by simp [put, hy]
    refine ⟨?_, hlen⟩
    rw [resizeTo_cut hlen]
    apply List.ext_getElem
    · rw [List.length_take]; omega
    · intro i h1 h2
      simp only [put, if_neg hy, List.getElem_take, List.getElem_map, List.getElem_range]
      rw [if_pos ⟨Nat.zero_le _, by omega⟩, Nat.sub_zero, List.getD_eq_getElem?_getD, List.getElem?_eq_getElem h2]
      rfl

/-- Programs keep to their critical sections, and the locks exclude each other. -/
structure InSections (h : List Item) : Prop where
  proper : ∀ pre it post, h = pre ++ it :: post → (∃ i b, it = .opened i b) ∨ Proper pre it
  excl : ∀ pre post, h = pre ++ post → Exclusion (holding pre)
  fresh : ∀ pre i b post, h = pre ++ Item.opened i b :: post → i ∉ openIn pre
  uses : Uses h

theorem InSections.prefix {h post : List Item} (hs : InSections (h ++ post)) : InSections h :=
  ⟨fun pre it rest e => hs.proper pre it (rest ++ post) (by rw [e]; simp),
    fun pre rest e => hs.excl pre (rest ++ post) (by rw [e]; simp),
    fun pre i b rest e => hs.fresh pre i b (rest ++ post) (by rw [e]; simp), hs.uses.prefix⟩

theorem DisciplinedAny.sections {h : List Item} (hd : DisciplinedAny h) : InSections h := by
  refine ⟨?_, ?_, ?_, DisciplinedAny.uses hd⟩
  · induction hd with
    | nil => simp
    | @snoc h it hd hp _ ih =>
      intro pre it' post e
      rcases List.eq_nil_or_concat post with rfl | ⟨p, x, rfl⟩
      · obtain ⟨rfl, e2⟩ := List.append_inj' e rfl
        cases e2
        cases it <;> first | exact .inl ⟨_, _, rfl⟩ | exact .inr hp
      · rw [List.concat_eq_append, ← List.cons_append, ← List.append_assoc] at e
        exact ih pre it' p (List.append_inj' e rfl).1
  · induction hd with
    | nil =>
      intro pre post e
      obtain ⟨rfl, _⟩ := List.append_eq_nil_iff.1 e.symm
      simp [Exclusion, holding]
    | @snoc h it hd hp hx ih =>
      intro pre post e
      rcases List.eq_nil_or_concat post with rfl | ⟨p, x, rfl⟩
      · rw [List.append_nil] at e; subst e; exact hx
      · rw [List.concat_eq_append, ← List.append_assoc] at e
        exact ih pre p (List.append_inj' e rfl).1
  · induction hd with
    | nil => simp
    | @snoc h it hd hp _ ih =>
      intro pre i b post e
      rcases List.eq_nil_or_concat post with rfl | ⟨p, x, rfl⟩
      · obtain ⟨rfl, e2⟩ := List.append_inj' e rfl
        cases e2
        exact hp.1
      · rw [List.concat_eq_append, ← List.cons_append, ← List.append_assoc] at e
        exact ih pre i b p (List.append_inj' e rfl).1

theorem WinDisciplinedAny.sections {h : List Item} (hd : WinDisciplinedAny h) : InSections h := by
  refine ⟨?_, ?_, ?_, WinDisciplinedAny.uses hd⟩
  · induction hd with
    | nil => simp
    | @snoc h it hd hp _ ih =>
      intro pre it' post e
      rcases List.eq_nil_or_concat post with rfl | ⟨p, x, rfl⟩
      · obtain ⟨rfl, e2⟩ := List.append_inj' e rfl
        cases e2
        cases it <;> first | exact .inl ⟨_, _, rfl⟩ | exact .inr hp
      · rw [List.concat_eq_append, ← List.cons_append, ← List.append_assoc] at e
        exact ih pre it' p (List.append_inj' e rfl).1
  · induction hd with
    | nil =>
      intro pre post e
      obtain ⟨rfl, _⟩ := List.append_eq_nil_iff.1 e.symm
      simp [Exclusion, holding]
    | @snoc h it hd hp hx ih =>
      intro pre post e
      rcases List.eq_nil_or_concat post with rfl | ⟨p, x, rfl⟩
      · rw [List.append_nil] at e; subst e; exact hx
      · rw [List.concat_eq_append, ← List.append_assoc] at e
        exact ih pre p (List.append_inj' e rfl).1
  · induction hd with
    | nil => simp
    | @snoc h it hd hp _ ih =>
      intro pre i b post e
      rcases List.eq_nil_or_concat post with rfl | ⟨p, x, rfl⟩
      · obtain ⟨rfl, e2⟩ := List.append_inj' e rfl
        cases e2
        exact hp.1
      · rw [List.concat_eq_append, ← List.cons_append, ← List.append_assoc] at e
        exact ih pre i b p (List.append_inj' e rfl).1

/-- Who holds an exclusive lock is alone. -/
theorem InSections.alone {h : List Item} (hs : InSections h) {i j : Sid} {sh : Bool} (hi : (i, sh) ∈ holding h)
    (hj : (j, false) ∈ holding h) : i = j := by
  by_cases e : i = j
  · exact e
  · have := hs.excl h [] (by simp) _ hi _ hj e
    cases this.2

/-- The stages fit to the array. -/
structure Updating (f : Sid → Nat → Bytes → Bytes) (d : Bytes) (tr : List (Item × StreamOut)) (s : Pool) : Prop where
  holds : ∀ i, stageOf i tr ≠ .out → ∃ sh, (i, sh) ∈ holding (tr.map Prod.fst)
  holds' : ∀ i, stageOf i tr = .wrote → (i, false) ∈ holding (tr.map Prod.fst)
  data : (∀ i, stageOf i tr ≠ .wrote) → s.data = contentOf f d (tr.map Prod.fst)
  rewound : ∀ i, stageOf i tr = .rewound → s.pos i = 0
  got : ∀ i x, stageOf i tr = .got x → x = s.data
  back : ∀ i x, stageOf i tr = .back x → x = s.data ∧ s.pos i = 0
  wrote : ∀ i, stageOf i tr = .wrote → s.data = put (contentOf f d (tr.map Prod.fst)) 0
      (f i (times i (tr.map Prod.fst)) (contentOf f d (tr.map Prod.fst))) ∧
    s.pos i = (f i (times i (tr.map Prod.fst)) (contentOf f d (tr.map Prod.fst))).length ∧ s.ahead i = false
  kinds : ∀ i ∈ openIn (tr.map Prod.fst), s.append i = false ∧ s.kind i = .random

theorem Updating.idle {f : Sid → Nat → Bytes → Bytes} {d : Bytes} {tr : List (Item × StreamOut)} {s s' : Pool} (hu : Updating f d tr s)
    {it : Item} {out : StreamOut} (e1 : s'.data = s.data) (e2 : ∀ i, s'.pos i = s.pos i)
    (e3 : ∀ i, stageOf i tr = .wrote → s'.ahead i = false)
    (e4 : ∀ i, (stageOf i (tr ++ [(it, out)]) = stageOf i tr ∧ ∀ sh, (i, sh) ∈ holding (tr.map Prod.fst) →
        (i, sh) ∈ holding (tr.map Prod.fst ++ [it])) ∨
      (stageOf i tr ≠ .wrote ∧ (stageOf i (tr ++ [(it, out)]) = .out ∨
        (stageOf i (tr ++ [(it, out)]) = .inside ∧ ∃ sh, (i, sh) ∈ holding (tr.map Prod.fst ++ [it])))))
    (e5 : completes it = none) (e6 : ∀ i ∈ openIn (tr.map Prod.fst ++ [it]), s'.append i = false ∧ s'.kind i = .random) :
    Updating f d (tr ++ [(it, out)]) s' := by
  have em : (tr ++ [(it, out)]).map Prod.fst = tr.map Prod.fst ++ [it] := by simp
  have ec : contentOf f d (tr.map Prod.fst ++ [it]) = contentOf f d (tr.map Prod.fst) := by rw [contentOf_snoc, e5]
  -- stages other than `out` and `inside` are those from before
  have old : ∀ i c, stageOf i (tr ++ [(it, out)]) = c → c ≠ .out → c ≠ .inside → stageOf i tr = c := by
    intro i c e n1 n2
    rcases e4 i with ⟨k, _⟩ | ⟨_, k | ⟨k, _⟩⟩
    · rw [← k]; exact e
    · exact absurd (e.symm.trans k) n1
    · exact absurd (e.symm.trans k) n2
  constructor
  · intro i hi
    rw [em]
    rcases e4 i with ⟨k, k'⟩ | ⟨_, k | ⟨_, k⟩⟩
    · rw [k] at hi
      obtain ⟨sh, hm⟩ := hu.holds i hi
      exact ⟨sh, k' sh hm⟩
    · exact absurd k hi
    · exact k
  · intro i hi
    rw [em]
    rcases e4 i with ⟨k, k'⟩ | ⟨_, k | ⟨k, _⟩⟩
    · rw [k] at hi
      exact k' _ (hu.holds' i hi)
    · rw [k] at hi; cases hi
    · rw [k] at hi; cases hi
  · intro hn
    rw [em, ec, e1]
    refine hu.data fun i hi => ?_
    rcases e4 i with ⟨k, _⟩ | ⟨k, _⟩
    · exact hn i (k.trans hi)
    · exact k hi
  · intro i hi
    rw [e2]
    exact hu.rewound i (old i _ hi nofun nofun)
  · intro i x hi
    rw [e1]
    exact hu.got i x (old i _ hi nofun nofun)
  · intro i x hi
    rw [e1, e2]
    exact hu.back i x (old i _ hi nofun nofun)
  · intro i hi
    have hi := old i _ hi nofun nofun
    rw [em, ec, e1, e2, times_snoc _ _ e5]
    exact ⟨(hu.wrote i hi).1, (hu.wrote i hi).2.1, e3 i hi⟩
  · rw [em]; exact e6

theorem Updating.did {f : Sid → Nat → Bytes → Bytes} {d : Bytes} {tr : List (Item × StreamOut)} {s s' : Pool} (hu : Updating f d tr s)
    {i : Sid} {op : StreamOp} {out : StreamOut} (hs : InSections (tr.map Prod.fst))
    (hl : ∃ sh, (i, sh) ∈ holding (tr.map Prod.fst)) (hw : Changes op → (i, false) ∈ holding (tr.map Prod.fst))
    (hi : i ∈ openIn (tr.map Prod.fst)) (hr : UpCall (f i (times i (tr.map Prod.fst))) (stageOf i tr) op) (hst : s.Step (.did i op) out s') :
    Updating f d (tr ++ [(.did i op, out)]) s' := by
  obtain ⟨k1, k2⟩ := hu.kinds i hi
  obtain ⟨log, g, _, h2, rfl⟩ := hst
  obtain ⟨h2, _⟩ := h2 k1
  rw [k2] at h2
  have em : (tr ++ [(Item.did i op, out)]).map Prod.fst = tr.map Prod.fst ++ [.did i op] := by simp
  have ho : openIn (tr.map Prod.fst ++ [Item.did i op]) = openIn (tr.map Prod.fst) := by rw [openIn_snoc]; rfl
  have hh : holding (tr.map Prod.fst ++ [Item.did i op]) = holding (tr.map Prod.fst) := by rw [holding_snoc]; rfl
  have own : stageOf i (tr ++ [(.did i op, out)]) = (stageOf i tr).did op out := by rw [stageOf_snoc]; simp [UpStage.next]
  have other : ∀ j, j ≠ i → stageOf j (tr ++ [(.did i op, out)]) = stageOf j tr := by
    intro j hj
    rw [stageOf_snoc]
    exact if_neg fun e => hj e.symm
  have pos : ∀ j, j ≠ i → (s.after i g).pos j = s.pos j := fun j hj => by simp [Pool.after, hj]
  have ahead : ∀ j, j ≠ i → (s.after i g).ahead j = s.ahead j := fun j hj => by simp [Pool.after, hj]
  have pos' : (s.after i g).pos i = g.file.pos := by simp [Pool.after]
  have ahead' : (s.after i g).ahead i = g.file.ahead := by simp [Pool.after]
  have kinds : ∀ j ∈ openIn (tr.map Prod.fst ++ [Item.did i op]), (s.after i g).append j = false ∧ (s.after i g).kind j = .random :=
    fun j hj => hu.kinds j (by rw [ho] at hj; exact hj)
  -- nobody else is between `write` and `truncate`
  have calm : ∀ j, j ≠ i → stageOf j tr ≠ .wrote := by
    intro j hj hc
    obtain ⟨sh, hl⟩ := hl
    exact hj (hs.alone hl (hu.holds' j hc)).symm
  -- calls that change nothing but the position
  have looks : g.file.data = s.data → completes (.did i op) = none → stageOf i tr ≠ .wrote →
      (stageOf i (tr ++ [(.did i op, out)]) ≠ .wrote) →
      (stageOf i (tr ++ [(.did i op, out)]) = .rewound → g.file.pos = 0) →
      (∀ x, stageOf i (tr ++ [(.did i op, out)]) = .got x → x = s.data) →
      (∀ x, stageOf i (tr ++ [(.did i op, out)]) = .back x → x = s.data ∧ g.file.pos = 0) →
      Updating f d (tr ++ [(.did i op, out)]) (s.after i g) := by
    intro g1 g2 g3 g4 g5 g6 g7
    have ec : contentOf f d (tr.map Prod.fst ++ [.did i op]) = contentOf f d (tr.map Prod.fst) := by rw [contentOf_snoc, g2]
    have gd : (s.after i g).data = s.data := g1
    constructor
    · intro j hj
      rw [em, hh]
      by_cases e : j = i
      · subst e; exact hl
      · rw [other j e] at hj; exact hu.holds j hj
    · intro j hj
      by_cases e : j = i
      · subst e; exact absurd hj g4
      · rw [other j e] at hj; exact absurd hj (calm j e)
    · intro _
      rw [em, ec, gd]
      refine hu.data fun j hj => ?_
      by_cases e : j = i
      · subst e; exact g3 hj
      · exact calm j e hj
    · intro j hj
      by_cases e : j = i
      · subst e; rw [pos']; exact g5 hj
      · rw [other j e] at hj; rw [pos j e]; exact hu.rewound j hj
    · intro j x hj
      rw [gd]
      by_cases e : j = i
      · subst e; exact g6 x hj
      · rw [other j e] at hj; exact hu.got j x hj
    · intro j x hj
      rw [gd]
      by_cases e : j = i
      · subst e; rw [pos']; exact g7 x hj
      · rw [other j e] at hj; rw [pos j e]; exact hu.back j x hj
    · intro j hj
      by_cases e : j = i
      · subst e; exact absurd hj g4
      · rw [other j e] at hj; exact absurd hj (calm j e)
    · rw [em]; exact kinds
  -- calls that change nothing at all
  have still : g.file = (s.view i log).file → (stageOf i tr).did op out = stageOf i tr → completes (.did i op) = none →
      Updating f d (tr ++ [(.did i op, out)]) (s.after i g) := by
    intro g1 g2 g3
    refine hu.idle (by simp [Pool.after, g1, Pool.view]) (fun j => ?_) (fun j hj => ?_) (fun j => .inl ⟨?_, fun sh hm => by rw [hh]; exact hm⟩)
      g3 kinds
    · by_cases e : j = i
      · subst e; rw [pos', g1]; rfl
      · exact pos j e
    · by_cases e : j = i
      · subst e; rw [ahead', g1]; exact (hu.wrote j hj).2.2
      · rw [ahead j e]; exact (hu.wrote j hj).2.2
    · by_cases e : j = i
      · subst e; rw [own]; exact g2
      · exact other j e
  rcases hr with rfl | rfl | rfl | ⟨rfl, hc⟩ | ⟨rfl, hc⟩ | ⟨x, hc, rfl⟩ | ⟨hc, rfl⟩
  · obtain ⟨rfl, m⟩ := h2; exact still m rfl rfl
  · obtain ⟨rfl, m⟩ := h2; exact still m rfl rfl
  · obtain ⟨rfl, m⟩ := h2; exact still m rfl rfl
  · -- seek
    simp only [Allowed, File.target, Int.le_refl, if_true] at h2
    obtain ⟨rfl, m⟩ := h2
    have g0 : g.file.pos = 0 := by rw [m]; rfl
    refine looks (by rw [m]; rfl) rfl ?_ ?_ (fun _ => g0) ?_ ?_
    · rcases hc with e | e | ⟨x, e⟩ <;> rw [e] <;> nofun
    · rw [own]; rcases hc with e | e | ⟨x, e⟩ <;> rw [e] <;> nofun
    · intro x; rw [own]; rcases hc with e | e | ⟨y, e⟩ <;> rw [e] <;> nofun
    · intro x
      rw [own]
      rcases hc with e | e | ⟨y, e⟩
      · rw [e]; nofun
      · rw [e]; nofun
      · rw [e]
        intro e'
        injection e' with e'
        subst e'
        exact ⟨hu.got i y e, g0⟩
  · -- read
    obtain ⟨rfl, m⟩ := h2
    refine looks (by rw [m]; rfl) rfl (by rw [hc]; nofun) (by rw [own, hc]; nofun) (by rw [own, hc]; nofun) ?_ (by rw [own, hc]; nofun)
    intro x
    rw [own, hc]
    intro e
    injection e with e
    rw [← e]
    simp [File.rest, Pool.view, hu.rewound i hc]
  · -- write
    obtain ⟨e1, e2⟩ := hu.back i x hc
    have hx : x = contentOf f d (tr.map Prod.fst) := by
      rw [e1]
      refine hu.data fun j hj => ?_
      by_cases e : j = i
      · subst e; rw [hc] at hj; cases hj
      · exact calm j e hj
    obtain ⟨rfl, m⟩ := h2
    have mine : (i, false) ∈ holding (tr.map Prod.fst) := hw trivial
    have quiet : ∀ j, j ≠ i → stageOf j tr = .out := by
      intro j hj
      by_cases e : stageOf j tr = .out
      · exact e
      · obtain ⟨sh, hm⟩ := hu.holds j e
        exact absurd (hs.alone hm mine) hj
    have ec : contentOf f d (tr.map Prod.fst ++ [.did i (.write (f i (times i (tr.map Prod.fst)) x))]) = contentOf f d (tr.map Prod.fst) := by
      rw [contentOf_snoc]; rfl
    have rest : ∀ j c, stageOf j (tr ++ [(.did i (.write (f i (times i (tr.map Prod.fst)) x)), .num (f i (times i (tr.map Prod.fst)) x).length)]) = c → c ≠ .out → j = i ∧ c = .wrote := by
      intro j c hj hn
      by_cases e : j = i
      · subst e; rw [own] at hj; exact ⟨rfl, hj.symm⟩
      · rw [other j e, quiet j e] at hj; exact absurd hj.symm hn
    constructor
    · intro j hj
      obtain ⟨rfl, _⟩ := rest j _ rfl hj
      rw [em, hh]; exact ⟨false, mine⟩
    · intro j hj
      obtain ⟨rfl, _⟩ := rest j _ hj nofun
      rw [em, hh]; exact mine
    · intro hn; exact absurd own (hn i)
    · intro j hj; cases (rest j _ hj nofun).2
    · intro j y hj; cases (rest j _ hj nofun).2
    · intro j y hj; cases (rest j _ hj nofun).2
    · intro j hj
      obtain ⟨rfl, _⟩ := rest j _ hj nofun
      rw [em, ec, pos', ahead', times_snoc _ _ rfl]
      show g.file.data = _ ∧ _ ∧ _
      rw [m, ← hx]
      simp only [Pool.view, e2, Nat.zero_add, and_true]
      rw [← e1]
    · rw [em]; exact kinds
  · -- truncate
    obtain ⟨e1, e2, e3⟩ := hu.wrote i hc
    obtain ⟨rfl, m⟩ := h2
    have mine : (i, false) ∈ holding (tr.map Prod.fst) := hw trivial
    have quiet : ∀ j, j ≠ i → stageOf j tr = .out := by
      intro j hj
      by_cases e : stageOf j tr = .out
      · exact e
      · obtain ⟨sh, hm⟩ := hu.holds j e
        exact absurd (hs.alone hm mine) hj
    have ec : contentOf f d (tr.map Prod.fst ++ [.did i (.truncate none)]) = f i (times i (tr.map Prod.fst)) (contentOf f d (tr.map Prod.fst)) := by
      rw [contentOf_snoc]; rfl
    have rest : ∀ j c, stageOf j (tr ++ [(.did i (.truncate none), .num (s.view i log).file.pos)]) = c → c ≠ .out → j = i ∧ c = .cut := by
      intro j c hj hn
      by_cases e : j = i
      · subst e; rw [own] at hj; exact ⟨rfl, hj.symm⟩
      · rw [other j e, quiet j e] at hj; exact absurd hj.symm hn
    constructor
    · intro j hj
      obtain ⟨rfl, _⟩ := rest j _ rfl hj
      rw [em, hh]; exact ⟨false, mine⟩
    · intro j hj; cases (rest j _ hj nofun).2
    · intro _
      rw [em, ec]
      show g.file.data = _
      rw [m]
      show resizeTo s.data (s.pos i) = _
      rw [e1, e2]
      exact (resizeTo_put _ _).1
    · intro j hj; cases (rest j _ hj nofun).2
    · intro j y hj; cases (rest j _ hj nofun).2
    · intro j y hj; cases (rest j _ hj nofun).2
    · intro j hj; cases (rest j _ hj nofun).2
    · rw [em]; exact kinds

theorem InSections.openOf {h : List Item} {it : Item} (hs : InSections (h ++ [it])) {i : Sid} {sh : Bool}
    (hi : (i, sh) ∈ holding h → i ∈ openIn h) (hm : (i, sh) ∈ holding (h ++ [it])) : i ∈ openIn (h ++ [it]) := by
  rw [openIn_snoc]
  rw [holding_snoc] at hm
  cases it with
  | granted j s =>
    rcases List.mem_append.1 hm with hm | hm
    · exact hi hm
    · simp only [List.mem_singleton, Prod.mk.injEq] at hm
      obtain ⟨rfl, rfl⟩ := hm
      rcases hs.proper h _ [] rfl with ⟨_, _, e⟩ | hp
      · cases e
      · exact hp.1
  | opened j b => exact List.mem_append_left _ (hi hm)
  | ask j => exact hi hm
  | did j op => exact hi hm
  | unlock j => exact hi (List.mem_filter.1 hm).1
  | exit j => exact hi (List.mem_filter.1 hm).1
  | close j =>
    obtain ⟨m1, m2⟩ := List.mem_filter.1 hm
    exact List.mem_filter.2 ⟨hi m1, by simpa using m2⟩
  | gone p =>
    obtain ⟨m1, m2⟩ := List.mem_filter.1 hm
    exact List.mem_filter.2 ⟨hi m1, by simpa using m2⟩

/-- Streams with locks are open. -/
theorem InSections.isOpen {h : List Item} (hs : InSections h) {i : Sid} {sh : Bool} (hm : (i, sh) ∈ holding h) : i ∈ openIn h := by
  obtain ⟨r, rfl⟩ : ∃ r : List Item, h = r.reverse := ⟨h.reverse, by simp⟩
  induction r with
  | nil => simp [holding] at hm
  | cons it r ih =>
    rw [List.reverse_cons] at hs hm ⊢
    exact InSections.openOf hs (fun m => ih hs.prefix m) hm

theorem lastOf_snoc (h : List Item) (it : Item) (i : Sid) :
    lastOf (h ++ [it]) i = if streamOf it = some i then some it else lastOf h i := by
  unfold lastOf
  rw [List.reverse_append]
  simp [List.find?_cons]
  split <;> simp_all

/-- A stream with a lock is not waiting for one. -/
theorem InSections.notAsking {h : List Item} (hs : InSections h) {i : Sid} {sh : Bool} (hm : (i, sh) ∈ holding h) :
    lastOf h i ≠ some (.ask i) := by
  obtain ⟨r, rfl⟩ : ∃ r : List Item, h = r.reverse := ⟨h.reverse, by simp⟩
  induction r with
  | nil => simp [holding] at hm
  | cons it r ih =>
    rw [List.reverse_cons] at hs hm ⊢
    rw [lastOf_snoc]
    rw [holding_snoc] at hm
    have ih := ih hs.prefix
    cases it with
    | ask j =>
      rcases hs.proper _ _ [] rfl with ⟨_, _, e⟩ | hp
      · cases e
      · have : j ≠ i := by rintro rfl; exact hp.2 sh hm
        simp only [streamOf, Option.some.injEq, this, if_false]
        exact ih hm
    | granted j s =>
      simp only [streamOf, Option.some.injEq]
      split
      · nofun
      · rename_i hne
        rcases List.mem_append.1 hm with hm | hm
        · exact ih hm
        · simp only [List.mem_singleton, Prod.mk.injEq] at hm
          exact absurd hm.1.symm hne
    | opened j b => simp only [streamOf, Option.some.injEq]; split; nofun; exact ih hm
    | did j op => simp only [streamOf, Option.some.injEq]; split; nofun; exact ih hm
    | unlock j => simp only [streamOf, Option.some.injEq]; split; nofun; exact ih (List.mem_filter.1 hm).1
    | exit j => simp only [streamOf, Option.some.injEq]; split; nofun; exact ih (List.mem_filter.1 hm).1
    | close j => simp only [streamOf, Option.some.injEq]; split; nofun; exact ih (List.mem_filter.1 hm).1
    | gone p => simp only [streamOf, reduceCtorEq, if_false]; exact ih (List.mem_filter.1 hm).1

theorem Pooled.updating {f : Sid → Nat → Bytes → Bytes} {d : Bytes} {tr : List (Item × StreamOut)} {s : Pool}
    (hp : Pooled (.start d) tr s) (hs : InSections (tr.map Prod.fst)) (hr : UpRules f tr) : Updating f d tr s := by
  generalize hs₀ : Pool.start d = s₀ at hp
  induction hp with
  | nil =>
    subst hs₀
    constructor <;> simp [stageOf, openIn, Pool.start, contentOf]
  | @snoc s' s'' tr it out _ hst ih =>
    have em : (tr ++ [(it, out)]).map Prod.fst = tr.map Prod.fst ++ [it] := by simp
    rw [em] at hs
    have hu := ih hs.prefix (UpRules.last hr).1
    have hit := (UpRules.last hr).2
    have at_ : ∀ j i, (s'.after j ⟨⟨s'.data, s'.pos j, false, []⟩, false⟩).pos i = s'.pos i := by
      intro j i
      simp only [Pool.after]
      split
      · rename_i e; rw [e]
      · rfl
    have away : ∀ j i, stageOf i tr = .wrote → (s'.after j ⟨⟨s'.data, s'.pos j, false, []⟩, false⟩).ahead i = false := by
      intro j i hi
      simp only [Pool.after]
      split
      · rfl
      · exact (hu.wrote i hi).2.2
    -- a stream that gives its lock back
    have leaves : ∀ j, stageOf j tr ≠ .wrote → (∀ i c, UpStage.next i c (it, out) = if j = i then .out else c) →
        (∀ H, holdStep H it = H.filter (fun h => h.1 ≠ j)) → ∀ i,
        (stageOf i (tr ++ [(it, out)]) = stageOf i tr ∧ ∀ sh, (i, sh) ∈ holding (tr.map Prod.fst) →
          (i, sh) ∈ holding (tr.map Prod.fst ++ [it])) ∨
        (stageOf i tr ≠ .wrote ∧ (stageOf i (tr ++ [(it, out)]) = .out ∨
          (stageOf i (tr ++ [(it, out)]) = .inside ∧ ∃ sh, (i, sh) ∈ holding (tr.map Prod.fst ++ [it])))) := by
      intro j h1 h2 h3 i
      rw [stageOf_snoc, h2]
      by_cases e : j = i
      · subst e; exact .inr ⟨h1, .inl (if_pos rfl)⟩
      · refine .inl ⟨if_neg e, fun sh hm => ?_⟩
        rw [holding_snoc, h3]
        exact List.mem_filter.2 ⟨hm, by simpa using fun e' : i = j => e e'.symm⟩
    have proper : (∀ i b, it ≠ .opened i b) → Proper (tr.map Prod.fst) it := by
      intro hn
      rcases hs.proper _ it [] rfl with ⟨i, b, e⟩ | hp
      · exact absurd e (hn i b)
      · exact hp
    cases it with
    | did j op =>
      refine Updating.did hu hs.prefix ?_ ?_ (hs.uses.opened (tr.map Prod.fst) j op [] rfl) hit hst
      · rcases proper nofun with ⟨_, h⟩ | ⟨_, h⟩
        · exact h
        · exact ⟨false, h⟩
      · intro hc
        rcases proper nofun with ⟨h, _⟩ | ⟨_, h⟩
        · cases op <;> first | exact hc.elim | exact h.elim
        · exact h
    | opened j b =>
      obtain ⟨_, rfl⟩ := hst
      have hf := hs.fresh (tr.map Prod.fst) j b [] rfl
      have hj : stageOf j tr = .out := by
        by_cases e : stageOf j tr = .out
        · exact e
        · obtain ⟨sh, hm⟩ := hu.holds j e
          exact absurd (hs.prefix.isOpen hm) hf
      have st : ∀ i, stageOf i (tr ++ [(.opened j b, out)]) = stageOf i tr := fun i => by rw [stageOf_snoc]; rfl
      have hh : holding (tr.map Prod.fst ++ [Item.opened j b]) = holding (tr.map Prod.fst) := by rw [holding_snoc]; rfl
      have ec : contentOf f d (tr.map Prod.fst ++ [Item.opened j b]) = contentOf f d (tr.map Prod.fst) := by rw [contentOf_snoc]; rfl
      have ne : ∀ i, stageOf i tr ≠ .out → ¬ i = j := by rintro i hi rfl; exact hi hj
      constructor
      · intro i hi; rw [st] at hi; rw [em, hh]; exact hu.holds i hi
      · intro i hi; rw [st] at hi; rw [em, hh]; exact hu.holds' i hi
      · intro hn; rw [em, ec]; exact hu.data fun i => by rw [← st]; exact hn i
      · intro i hi
        rw [st] at hi
        simp only [if_neg (ne i (by rw [hi]; nofun))]
        exact hu.rewound i hi
      · intro i x hi; rw [st] at hi; exact hu.got i x hi
      · intro i x hi
        rw [st] at hi
        simp only [if_neg (ne i (by rw [hi]; nofun))]
        exact hu.back i x hi
      · intro i hi
        rw [st] at hi
        simp only [if_neg (ne i (by rw [hi]; nofun))]
        rw [em, ec, times_snoc _ _ rfl]
        exact hu.wrote i hi
      · intro i hi
        by_cases e : i = j
        · subst e; simp only [if_true]; exact ⟨hit.2, hit.1⟩
        · simp only [if_neg e]
          rw [em, openIn_snoc] at hi
          exact hu.kinds i ((List.mem_append.1 hi).resolve_right (by simpa using e))
    | ask j =>
      obtain ⟨_, rfl⟩ := hst
      refine hu.idle rfl (at_ j) (away j) (fun i => .inl ⟨by rw [stageOf_snoc]; rfl, fun sh hm => by rw [holding_snoc]; exact hm⟩) rfl
        fun i hi => ?_
      rw [openIn_snoc] at hi
      exact hu.kinds i hi
    | granted j sh =>
      obtain ⟨_, rfl⟩ := hst
      refine hu.idle rfl (at_ j) (away j) (fun i => ?_) rfl fun i hi => ?_
      · rw [stageOf_snoc, holding_snoc]
        by_cases e : j = i
        · subst e
          refine .inr ⟨fun hw => ?_, .inr ⟨if_pos rfl, sh, List.mem_append_right _ List.mem_cons_self⟩⟩
          exact hs.prefix.notAsking (hu.holds' j hw) (proper nofun).2
        · exact .inl ⟨if_neg e, fun sh hm => List.mem_append_left _ hm⟩
      · rw [openIn_snoc] at hi
        exact hu.kinds i hi
    | unlock j =>
      obtain ⟨_, rfl⟩ := hst
      refine hu.idle rfl (at_ j) (away j) (leaves j hit (fun _ _ => rfl) fun _ => rfl) rfl fun i hi => ?_
      rw [openIn_snoc] at hi
      exact hu.kinds i hi
    | exit j =>
      obtain ⟨_, rfl⟩ := hst
      refine hu.idle rfl (fun _ => rfl) (fun i hi => (hu.wrote i hi).2.2) (leaves j hit (fun _ _ => rfl) fun _ => rfl) rfl fun i hi => ?_
      rw [openIn_snoc] at hi
      exact hu.kinds i hi
    | close j =>
      obtain ⟨_, rfl⟩ := hst
      refine hu.idle rfl (fun _ => rfl) (fun i hi => (hu.wrote i hi).2.2) (leaves j hit (fun _ _ => rfl) fun _ => rfl) rfl fun i hi => ?_
      rw [openIn_snoc] at hi
      exact hu.kinds i (List.mem_filter.1 hi).1
    | gone p =>
      obtain ⟨_, rfl⟩ := hst
      refine hu.idle rfl (fun _ => rfl) (fun i hi => (hu.wrote i hi).2.2) (fun i => ?_) rfl fun i hi => ?_
      · rw [stageOf_snoc, holding_snoc]
        by_cases e : i.1 = p
        · refine .inr ⟨fun hw => ?_, .inl (if_pos e)⟩
          exact proper nofun _ (hu.holds' i hw) e
        · exact .inl ⟨if_neg e, fun sh hm => List.mem_filter.2 ⟨hm, by simpa using e⟩⟩
      · rw [openIn_snoc] at hi
        exact hu.kinds i (List.mem_filter.1 hi).1

/-- None of these calls is one that the code gets wrong. -/
theorem up_safe {f : Sid → Nat → Bytes → Bytes} {d : Bytes} {tr : List (Item × StreamOut)} {s : Pool} (hu : Updating f d tr s)
    {i : Sid} {op : StreamOp} (hi : i ∈ openIn (tr.map Prod.fst)) (hr : UpRule f tr (.did i op)) :
    ¬ s.Unsafe (.did i op) ∧ ¬ Stretches (s.kind i) (s.view i []).file op := by
  obtain ⟨k1, _⟩ := hu.kinds i hi
  have hx : s.Unsafe (.did i op) → Spec.Unsafe (s.kind i) (s.view i []).file op := by
    rintro (⟨h, _⟩ | ⟨_, h⟩)
    · rw [k1] at h; cases h
    · exact h
  rcases hr with rfl | rfl | rfl | ⟨rfl, hc⟩ | ⟨rfl, hc⟩ | ⟨x, hc, rfl⟩ | ⟨hc, rfl⟩
  · exact ⟨hx, id⟩
  · exact ⟨hx, id⟩
  · exact ⟨hx, id⟩
  · refine ⟨fun h => ?_, id⟩
    have := (hx h).2.2
    simp [File.target] at this
  · exact ⟨hx, id⟩
  · exact ⟨hx, id⟩
  · obtain ⟨e1, e2, e3⟩ := hu.wrote i hc
    refine ⟨fun h => ?_, fun h => ?_⟩
    · have := (hx h).2.1
      simp only [Pool.view] at this
      rw [e3] at this; cases this
    · have := (resizeTo_put (contentOf f d (tr.map Prod.fst)) (f i (times i (tr.map Prod.fst)) (contentOf f d (tr.map Prod.fst)))).2
      simp only [Stretches, Pool.view, Option.getD_none] at h
      rw [e1, e2] at h
      omega

/-- The history is one of an array, and of programs in their critical sections. -/
def SharesAll (d : Bytes) (h : List Item) : Prop :=
  InSections h ∧ ∃ s, Pooled (.start d) ((beforehand d).play h).1 s ∧
    ((∀ i, (i, false) ∉ holding h) → ((beforehand d).play h).2.file = s.data)

theorem play_split (d : Bytes) (pre : List Item) (it : Item) (rest : List Item) :
    ∃ out post, ((beforehand d).play (pre ++ it :: rest)).1 = ((beforehand d).play pre).1 ++ (it, out) :: post := by
  obtain ⟨r, rfl⟩ : ∃ r : List Item, rest = r.reverse := ⟨rest.reverse, by simp⟩
  induction r with
  | nil => exact ⟨_, [], by rw [List.reverse_nil, Together.play_snoc]⟩
  | cons x r ih =>
    obtain ⟨out, post, ih⟩ := ih
    rw [List.reverse_cons, ← List.cons_append, ← List.append_assoc, Together.play_snoc, ih]
    exact ⟨out, post ++ _, by rw [List.append_assoc, List.cons_append]⟩

theorem UpRules.before {f : Sid → Nat → Bytes → Bytes} {d : Bytes} {pre : List Item} {it : Item} {rest : List Item}
    (hr : UpRules f ((beforehand d).play (pre ++ it :: rest)).1) :
    UpRules f ((beforehand d).play pre).1 ∧ UpRule f ((beforehand d).play pre).1 it := by
  obtain ⟨out, post, e⟩ := play_split d pre it rest
  rw [e] at hr
  exact ⟨fun p i o q h => hr p i o (q ++ (it, out) :: post) (by rw [h]; simp), hr _ _ _ _ rfl⟩

theorem DisciplinedAny.sharesAll {h : List Item} (hd : DisciplinedAny h) (d : Bytes) {f : Sid → Nat → Bytes → Bytes}
    (hr : UpRules f ((beforehand d).play h).1) : SharesAll d h := by
  have hs := DisciplinedAny.sections hd
  refine ⟨hs, ?_⟩
  obtain ⟨pre, post, s, rfl, e1, e2, e3⟩ := C123_serial_partial hd d
  rcases e3 with rfl | ⟨it, rest, rfl, e3⟩
  · rw [List.append_nil]; exact ⟨s, e1, e2⟩
  · obtain ⟨r1, r2⟩ := UpRules.before hr
    have hu := Pooled.updating e1 (by rw [play_items]; exact hs.prefix) r1
    cases it with
    | did i op => exact absurd e3 (up_safe hu (by rw [play_items]; exact hs.uses.opened pre i op rest rfl) r2).1
    | _ => exact e3.elim

theorem WinDisciplinedAny.sharesAll {h : List Item} (hd : WinDisciplinedAny h) (d : Bytes) {f : Sid → Nat → Bytes → Bytes}
    (hr : UpRules f ((beforehand d).play h).1) : SharesAll d h := by
  have hs := WinDisciplinedAny.sections hd
  refine ⟨hs, ?_⟩
  obtain ⟨pre, post, s, rfl, e1, e2, e3⟩ := C123_windows_partial hd d
  rcases e3 with rfl | ⟨it, rest, rfl, e3⟩
  · rw [List.append_nil]; exact ⟨s, e1, e2⟩
  · obtain ⟨r1, r2⟩ := UpRules.before hr
    have hu := Pooled.updating e1 (by rw [play_items]; exact hs.prefix) r1
    cases it with
    | did i op =>
      have := up_safe hu (by rw [play_items]; exact hs.uses.opened pre i op rest rfl) r2
      rcases e3 with e3 | e3
      · exact absurd e3 this.1
      · exact absurd e3 this.2
    | _ => exact e3.elim

theorem SharesAll.content {h : List Item} {d : Bytes} (hs : SharesAll d h) {f : Sid → Nat → Bytes → Bytes}
    (hr : UpRules f ((beforehand d).play h).1) (hn : ∀ i, (i, false) ∉ holding h) :
    ((beforehand d).play h).2.file = contentOf f d h := by
  obtain ⟨hi, s, h1, h2⟩ := hs
  have hu := Pooled.updating h1 (by rw [play_items]; exact hi) hr
  rw [h2 hn, ← play_items (beforehand d) h]
  refine hu.data fun i hw => ?_
  have := hu.holds' i hw
  rw [play_items] at this
  exact hn i this

theorem SharesAll.upServed {h : List Item} {d : Bytes} {i : Sid} {op : StreamOp} (hs : SharesAll d (h ++ [Item.did i op]))
    {f : Sid → Nat → Bytes → Bytes} (hr : UpRules f ((beforehand d).play (h ++ [Item.did i op])).1) :
    UpServed f d h i op (((beforehand d).play h).2.step (Item.did i op)).1 := by
  obtain ⟨hi, s', h1, _⟩ := hs
  obtain ⟨r1, r2⟩ := UpRules.before hr
  rw [Together.play_snoc] at h1
  obtain ⟨s, h3, hst⟩ := Pooled.last h1
  clear h1 hr
  generalize (((beforehand d).play h).2.step (Item.did i op)).1 = out at hst
  have em := play_items (beforehand d) h
  generalize ((beforehand d).play h).1 = tr at *
  subst em
  have hu := Pooled.updating h3 hi.prefix r1
  have ho := hi.uses.opened (tr.map Prod.fst) i op [] rfl
  have hl : ∃ sh, (i, sh) ∈ holding (tr.map Prod.fst) := by
    rcases hi.proper _ _ [] rfl with ⟨_, _, e⟩ | hp
    · cases e
    · rcases hp with ⟨_, h⟩ | ⟨_, h⟩
      · exact h
      · exact ⟨false, h⟩
  obtain ⟨k1, k2⟩ := hu.kinds i ho
  obtain ⟨log, g, _, h2, rfl⟩ := hst
  obtain ⟨h2, _⟩ := h2 k1
  rw [k2] at h2
  have calm : stageOf i tr ≠ .wrote → s.data = contentOf f d (tr.map Prod.fst) := by
    intro hw
    refine hu.data fun j hj => ?_
    obtain ⟨sh, hl⟩ := hl
    have := hi.prefix.alone hl (hu.holds' j hj)
    subst this
    exact hw hj
  rcases r2 with rfl | rfl | rfl | ⟨rfl, hc⟩ | ⟨rfl, hc⟩ | ⟨x, hc, rfl⟩ | ⟨hc, rfl⟩
  · trivial
  · trivial
  · trivial
  · simp only [Allowed, File.target, Int.le_refl, if_true] at h2
    exact h2.1
  · have e : out = _ := h2.1
    rw [UpServed, e, ← calm (by rw [hc]; nofun)]
    simp [File.rest, Pool.view, hu.rewound i hc]
  · rw [UpServed, ← calm (by rw [hc]; nofun), ← (hu.back i x hc).1]
    exact h2.1
  · rw [UpServed, ← (hu.wrote i hc).2.1]
    exact h2.1

/-- C127.  Any number of processes change a file, each in its critical sections: they read it from the beginning, compute the new
content from what they read, write it and cut the file behind it.  When nobody is in an exclusive section, the file is the one that
results when all updates are made one after the other; none is lost, whatever the streams had in their buffers. -/
theorem C127_update {h : List Item} (hd : DisciplinedAny h) (d : Bytes) {f : Sid → Nat → Bytes → Bytes}
    (hr : UpRules f ((beforehand d).play h).1) (hn : ∀ i, (i, false) ∉ holding h) :
    ((beforehand d).play h).2.file = contentOf f d h :=
  SharesAll.content (DisciplinedAny.sharesAll hd d hr) hr hn

/-- C127: whoever reads gets all the updates that were completed until then, and calls do not fail. -/
theorem C127_served {h : List Item} {i : Sid} {op : StreamOp} (hd : DisciplinedAny (h ++ [Item.did i op])) (d : Bytes)
    {f : Sid → Nat → Bytes → Bytes} (hr : UpRules f ((beforehand d).play (h ++ [Item.did i op])).1) :
    UpServed f d h i op (((beforehand d).play h).2.step (Item.did i op)).1 :=
  SharesAll.upServed (DisciplinedAny.sharesAll hd d hr) hr

/-- C127 on windows.  (Under the assumptions of C93.) -/
theorem C127_windows {h : List Item} (hd : WinDisciplinedAny h) (d : Bytes) {f : Sid → Nat → Bytes → Bytes}
    (hr : UpRules f ((beforehand d).play h).1) (hn : ∀ i, (i, false) ∉ holding h) :
    ((beforehand d).play h).2.file = contentOf f d h :=
  SharesAll.content (WinDisciplinedAny.sharesAll hd d hr) hr hn

theorem C127_windows_served {h : List Item} {i : Sid} {op : StreamOp} (hd : WinDisciplinedAny (h ++ [Item.did i op])) (d : Bytes)
    {f : Sid → Nat → Bytes → Bytes} (hr : UpRules f ((beforehand d).play (h ++ [Item.did i op])).1) :
    UpServed f d h i op (((beforehand d).play h).2.step (Item.did i op)).1 :=
  SharesAll.upServed (WinDisciplinedAny.sharesAll hd d hr) hr

/-! ## With the system that grants the locks -/

/-- C127 together with the processes, threads, registries and kernel that grant the locks; all locks exclusive. -/
theorem C127_exclusive {u : Uid} {h : List Item} {ls : List Label} {w : World} {tr : List Event} (hj : JointAny u h ls w tr)
    (hx : ∀ i, Item.granted i true ∉ h) (d : Bytes) {f : Sid → Nat → Bytes → Bytes} (hr : UpRules f ((beforehand d).play h).1)
    (hn : ∀ i, (i, false) ∉ holding h) : ((beforehand d).play h).2.file = contentOf f d h :=
  C127_update (JointAny.disciplined hj hx) d hr hn

/-- The same when programs that only read share their locks.  Missing: two of them in one process (see C02). -/
theorem C127_shared_partial {u : Uid} {h : List Item} {ls : List Label} {w : World} {tr : List Event} (hj : JointAny u h ls w tr)
    (hc : ∀ tr₁ tr₂, tr = tr₁ ++ tr₂ → NoSharedOverlap (heldOf tr₁ ++ requestedOf tr₁)) (d : Bytes)
    {f : Sid → Nat → Bytes → Bytes} (hr : UpRules f ((beforehand d).play h).1)
    (hn : ∀ i, (i, false) ∉ holding h) : ((beforehand d).play h).2.file = contentOf f d h :=
  C127_update (JointAny.shared hj hc) d hr hn

/-- C127 together with the processes, threads, registries and kernel of windows. -/
theorem C127_windows_locks {u : Uid} {h : List Item} {ls : List Win.Label} {w : Win.World} {tr : List Event}
    (hj : WinJointAny u h ls w tr) (d : Bytes) {f : Sid → Nat → Bytes → Bytes} (hr : UpRules f ((beforehand d).play h).1)
    (hn : ∀ i, (i, false) ∉ holding h) : ((beforehand d).play h).2.file = contentOf f d h :=
  C127_windows (WinJointAny.disciplined hj) d hr hn

/-! ## Cases -/

/-- One program puts a byte before the content, another cuts two bytes off, and the first looks at the result with a shared lock. -/
def revised (a b : Buf) : List Item :=
  [.opened (1, 10) a, .opened (2, 20) b, .ask (1, 10), .granted (1, 10) false,
    .did (1, 10) (.seek 0 .set), .did (1, 10) (.read none), .did (1, 10) (.seek 0 .set), .did (1, 10) (.write [65, 66, 67]),
    .did (1, 10) (.truncate none), .unlock (1, 10),
    .ask (2, 20), .granted (2, 20) false,
    .did (2, 20) (.seek 0 .set), .did (2, 20) (.read none), .did (2, 20) (.seek 0 .set), .did (2, 20) (.write [67]),
    .did (2, 20) (.truncate none), .did (2, 20) .flush, .exit (2, 20),
    .ask (1, 10), .granted (1, 10) true, .did (1, 10) (.seek 0 .set), .did (1, 10) (.read none), .unlock (1, 10)]

def revision (i : Sid) (n : Nat) (x : Bytes) : Bytes := if i = (1, 10) then if n = 0 then 65 :: x else x else x.drop 2

/-- The rules along a history, one item after the other. -/
def UpSteps (f : Sid → Nat → Bytes → Bytes) : List (Item × StreamOut) → List (Item × StreamOut) → Prop
  | _, [] => True
  | pre, e :: rest => UpRule f pre e.1 ∧ UpSteps f (pre ++ [e]) rest

theorem UpSteps.rules {f : Sid → Nat → Bytes → Bytes} : ∀ {rest pre : List (Item × StreamOut)}, UpSteps f pre rest →
    ∀ p it out q, rest = p ++ (it, out) :: q → UpRule f (pre ++ p) it
  | [], _, _, p, _, _, _, h => by cases p <;> cases h
  | e :: rest, pre, hs, [], it, out, q, h => by
    cases h
    rw [List.append_nil]; exact hs.1
  | e :: rest, pre, hs, e' :: p, it, out, q, h => by
    rw [List.cons_append, List.cons.injEq] at h
    obtain ⟨rfl, h⟩ := h
    rw [List.append_cons]
    exact UpSteps.rules hs.2 p it out q h

theorem zipped {α β : Type} : ∀ l : List (α × β), (l.map Prod.fst).zip (l.map Prod.snd) = l
  | [] => rfl
  | e :: l => by simp [zipped l]

theorem upRules_of {f : Sid → Nat → Bytes → Bytes} {d : Bytes} {h : List Item} {outs : List StreamOut}
    (ho : ((beforehand d).play h).1.map Prod.snd = outs) (hs : UpSteps f [] (h.zip outs)) : UpRules f ((beforehand d).play h).1 := by
  rw [← zipped ((beforehand d).play h).1, play_items, ho]
  intro pre it out post e
  simpa using UpSteps.rules hs pre it out post e

/-- What the calls return. -/
def revisedOuts : List StreamOut :=
  [.done, .done, .done, .done, .num 0, .bytes [66, 67], .num 0, .num 3, .num 3, .done,
    .done, .done, .num 0, .bytes [65, 66, 67], .num 0, .num 1, .num 1, .done, .done,
    .done, .done, .num 0, .bytes [67], .done]

theorem revised_rules {a b : Buf} (ha : a.kind = .random) (hb : b.kind = .random) (ha' : a.raw.append = false)
    (hb' : b.raw.append = false) : UpSteps revision [] ((revised a b).zip revisedOuts) := by
  simp [revised, revisedOuts, UpSteps, UpRule, UpCall, stageOf, UpStage.next, UpStage.did, times, revision, ha, hb, ha', hb']
  rfl

theorem revised_steps {a b : Buf} (ha : FreshAny a) (hb : FreshAny b) : AllSteps ProperAny [] (revised a b) := by
  simp [revised, AllSteps, ProperAny, Proper, ha, hb, openIn, openStep, holding, holdStep, lastOf, streamOf, Exclusion, Inquires, Changes]

theorem winRevised_steps {a b : Buf} (ha : WinFreshAny a) (hb : WinFreshAny b) : AllSteps WinProperAny [] (revised a b) := by
  simp [revised, AllSteps, WinProperAny, Proper, ha, hb, openIn, openStep, holding, holdStep, lastOf, streamOf, Exclusion, Inquires, Changes]

theorem exBoth_any : FreshAny exBoth := ⟨exBoth_fresh.1, rfl, rfl, exBoth_fresh.2.2.2.2, nofun⟩

/-- A stream of windows opened on an empty file to read and write it. -/
def winReviser : Buf := { exBoth with raw := { exBoth.raw with platform := .windows } }

theorem winReviser_fresh : WinFreshAny winReviser :=
  ⟨⟨.random, 8, winReviser.raw, by simp [Buf.create, winReviser, exBoth, opened, rawOf]⟩, rfl, fun _ => rfl, rfl, exBoth_fresh.2.2.2.2, nofun⟩

example : DisciplinedAny (revised exBoth exBoth) ∧ UpRules revision ((beforehand [66, 67]).play (revised exBoth exBoth)).1 ∧
    (∀ i, (i, false) ∉ holding (revised exBoth exBoth)) ∧ contentOf revision [66, 67] (revised exBoth exBoth) = [67] ∧
    ((beforehand [66, 67]).play (revised exBoth exBoth)).2.file = [67] :=
  ⟨by simpa using AllSteps.disciplined .nil (revised_steps exBoth_any exBoth_any),
    upRules_of (by decide +kernel) (revised_rules rfl rfl rfl rfl), by simp [revised, holding, holdStep], by decide +kernel,
    by decide +kernel⟩

example : WinDisciplinedAny (revised winReviser winReviser) ∧ UpRules revision ((beforehand [66, 67]).play (revised winReviser winReviser)).1 ∧
    (∀ i, (i, false) ∉ holding (revised winReviser winReviser)) ∧ ((beforehand [66, 67]).play (revised winReviser winReviser)).2.file = [67] :=
  ⟨by simpa using AllSteps.winDisciplined .nil (winRevised_steps winReviser_fresh winReviser_fresh),
    upRules_of (by decide +kernel) (revised_rules rfl rfl rfl rfl), by simp [revised, holding, holdStep], by decide +kernel⟩

-- the hypotheses of `C127_served`: the program reads with a shared lock what the other one left
example : (revised exBoth exBoth).take 23 = (revised exBoth exBoth).take 22 ++ [Item.did (1, 10) (.read none)] ∧
    DisciplinedAny ((revised exBoth exBoth).take 23) ∧
    (((beforehand [66, 67]).play ((revised exBoth exBoth).take 22)).2.step (Item.did (1, 10) (.read none))).1 = .bytes [67] ∧
    contentOf revision [66, 67] ((revised exBoth exBoth).take 22) = [67] :=
  ⟨rfl, by simpa using AllSteps.disciplined .nil (AllSteps.take 23 (revised_steps exBoth_any exBoth_any)), by decide +kernel,
    by decide +kernel⟩

theorem revised_first {a b : Buf} (ha : a.kind = .random) (hb : b.kind = .random) (ha' : a.raw.append = false)
    (hb' : b.raw.append = false) : UpSteps revision [] (((revised a b).take 19).zip (revisedOuts.take 19)) := by
  simp [revised, revisedOuts, UpSteps, UpRule, UpCall, stageOf, UpStage.next, UpStage.did, times, revision, ha, hb, ha', hb']
  rfl

-- the first two critical sections with the lock system
example : ∃ ls w tr, JointAny (0, 7) ((revised exBoth exBoth).take 19) ls w tr ∧
    (∀ i, Item.granted i true ∉ (revised exBoth exBoth).take 19) ∧
    UpRules revision ((beforehand [66, 67]).play ((revised exBoth exBoth).take 19)).1 ∧
    (∀ i, (i, false) ∉ holding ((revised exBoth exBoth).take 19)) := by
  have e1 : (Verif.run before₁).map (fun x => heldOf x.2) = some [⟨1, 10, (0, 7), false, 0, none⟩] := by decide
  have e2 : ((Verif.run before₁).bind (fun x => runFrom x.1 x.2 before₂)).map (fun x => heldOf x.2) =
      some [⟨2, 20, (0, 7), false, 0, none⟩] := by decide
  cases hr1 : Verif.run before₁ with
  | none => rw [hr1] at e1; cases e1
  | some x =>
    rw [hr1] at e1 e2
    simp only [Option.map_some, Option.some.injEq] at e1
    simp only [Option.bind_some] at e2
    cases hr2 : runFrom x.1 x.2 before₂ with
    | none => rw [hr2] at e2; cases e2
    | some y =>
      rw [hr2] at e2
      simp only [Option.map_some, Option.some.injEq] at e2
      have hs := AllSteps.take 19 (revised_steps exBoth_any exBoth_any)
      have hs' : AllSteps ProperAny [] ((revised exBoth exBoth).take 10 ++ ((revised exBoth exBoth).take 19).drop 10) := hs
      obtain ⟨s1, s2⟩ := AllSteps.split hs'
      have j0 : JointAny (0, 7) [] _ x.1 x.2 := JointAny.run .init rfl before₁ (by decide) hr1
      have j1 := JointAny.items (a := ((1, 10), false)) ⟨_, by rw [e1]; exact List.mem_cons_self, rfl, rfl, rfl, by simp [Covers]⟩ j0 s1
        (by
          intro n
          have : ∀ n < 11, ∀ b ∈ holding ([] ++ ((revised exBoth exBoth).take 10).take n), b = ((1, 10), false) := by decide +kernel
          by_cases hn : n < 11
          · exact this n hn
          · rw [List.take_of_length_le (by simp [revised]; omega)]
            exact this 10 (by decide))
      have j2 := JointAny.run j1 rfl before₂ (by decide) hr2
      have j3 := JointAny.items (a := ((2, 20), false)) ⟨⟨2, 20, (0, 7), false, 0, none⟩, by rw [e2]; exact List.mem_cons_self, rfl, rfl, rfl, by simp [Covers]⟩ j2 s2
        (by
          intro n
          have : ∀ n < 10, ∀ b ∈ holding (([] ++ (revised exBoth exBoth).take 10) ++
              (((revised exBoth exBoth).take 19).drop 10).take n), b = ((2, 20), false) := by decide +kernel
          by_cases hn : n < 10
          · exact this n hn
          · rw [List.take_of_length_le (l := ((revised exBoth exBoth).take 19).drop 10) (by simp [revised]; omega)]
            exact this 9 (by decide))
      exact ⟨_, y.1, y.2, j3, by simp [revised],
        upRules_of (outs := revisedOuts.take 19) (by decide +kernel) (revised_first rfl rfl rfl rfl), by simp [revised, holding, holdStep]⟩

/-- What the lock system of windows does between the sections. -/
def winBeforeRevision : List Win.Label := Win.doUnlock 1 10 none 0 ++ Win.doLock 2 0 20 none 0 false

-- the first two critical sections with the lock system of windows
example : ∃ ls w tr, WinJointAny (0, 7) ((revised winReviser winReviser).take 19) ls w tr ∧
    UpRules revision ((beforehand [66, 67]).play ((revised winReviser winReviser).take 19)).1 ∧
    (∀ i, (i, false) ∉ holding ((revised winReviser winReviser).take 19)) := by
  have e1 : (Win.sane winBeforeTail₁).map (fun x => heldOf x.2) = some [⟨1, 10, (0, 7), false, 0, none⟩] := by decide +kernel
  have e2 : ((Win.sane winBeforeTail₁).bind (fun x => Win.checkedFrom (fun pre w l => Win.wrappedB pre w l && Win.singleB w l &&
      Win.fitsB l) winBeforeTail₁ x.1 x.2 winBeforeRevision)).map (fun x => heldOf x.2) =
      some [⟨2, 20, (0, 7), false, 0, none⟩] := by decide +kernel
  cases hr1 : Win.sane winBeforeTail₁ with
  | none => rw [hr1] at e1; cases e1
  | some x =>
    rw [hr1] at e1 e2
    simp only [Option.map_some, Option.some.injEq] at e1
    simp only [Option.bind_some] at e2
    cases hr2 : Win.checkedFrom (fun pre w l => Win.wrappedB pre w l && Win.singleB w l && Win.fitsB l) winBeforeTail₁ x.1 x.2
        winBeforeRevision with
    | none => rw [hr2] at e2; cases e2
    | some y =>
      rw [hr2] at e2
      simp only [Option.map_some, Option.some.injEq] at e2
      have hs' : AllSteps WinProperAny [] ((revised winReviser winReviser).take 10 ++ ((revised winReviser winReviser).take 19).drop 10) :=
        AllSteps.take 19 (winRevised_steps winReviser_fresh winReviser_fresh)
      obtain ⟨s1, s2⟩ := AllSteps.split hs'
      have j0 : WinJointAny (0, 7) [] winBeforeTail₁ x.1 x.2 := WinJointAny.run (ls := winBeforeTail₁) rfl .init hr1
      have j1 := WinJointAny.items (a := ((1, 10), false))
        ⟨⟨1, 10, (0, 7), false, 0, none⟩, by rw [e1]; exact List.mem_cons_self, rfl, rfl, rfl, by simp [Covers]⟩ j0 s1
        (by
          intro n
          have : ∀ n < 11, ∀ b ∈ holding ([] ++ ((revised winReviser winReviser).take 10).take n), b = ((1, 10), false) := by decide +kernel
          by_cases hn : n < 11
          · exact this n hn
          · rw [List.take_of_length_le (by simp [revised]; omega)]
            exact this 10 (by decide))
      have j2 := WinJointAny.run (ls := winBeforeRevision) rfl j1 hr2
      have j3 := WinJointAny.items (a := ((2, 20), false))
        ⟨⟨2, 20, (0, 7), false, 0, none⟩, by rw [e2]; exact List.mem_cons_self, rfl, rfl, rfl, by simp [Covers]⟩ j2 s2
        (by
          intro n
          have : ∀ n < 10, ∀ b ∈ holding (([] ++ (revised winReviser winReviser).take 10) ++
              (((revised winReviser winReviser).take 19).drop 10).take n), b = ((2, 20), false) := by decide +kernel
          by_cases hn : n < 10
          · exact this n hn
          · rw [List.take_of_length_le (l := ((revised winReviser winReviser).take 19).drop 10) (by simp [revised]; omega)]
            exact this 9 (by decide))
      exact ⟨_, y.1, y.2, j3, upRules_of (outs := revisedOuts.take 19) (by decide +kernel) (revised_first rfl rfl rfl rfl),
        by simp [revised, holding, holdStep]⟩

end Verif.Props
