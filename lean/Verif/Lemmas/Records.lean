import Verif.Lemmas.Stale
import Verif.Spec.Records

/-!
# Streams that lock the bytes they use
-/

set_option autoImplicit false

namespace Verif

open Spec

namespace Rec

/-! ## Reading depends only on the bytes read -/

theorem drop_take_agree {v D : Bytes} {p q : Nat} (hag : ∀ x, p ≤ x → x < q → v[x]? = D[x]?) {m : Nat} (hm : p + m ≤ q) :
    (v.drop p).take m = (D.drop p).take m := by
  apply List.ext_getElem?
  intro k
  simp only [List.getElem?_take, List.getElem?_drop]
  split
  · exact hag _ (by omega) (by omega)
  · rfl

theorem drop_agree {v D : Bytes} {p q : Nat} (hlen : v.length = D.length) (hag : ∀ x, p ≤ x → x < q → v[x]? = D[x]?)
    (hq : D.length ≤ q) : v.drop p = D.drop p := by
  apply List.ext_getElem?
  intro k
  simp only [List.getElem?_drop]
  by_cases hk : p + k < q
  · exact hag _ (by omega) hk
  · rw [List.getElem?_eq_none (by omega), List.getElem?_eq_none (by omega)]

theorem prefix_agree {v D got : Bytes} {p q : Nat} (hag : ∀ x, p ≤ x → x < q → v[x]? = D[x]?) (hg : got <+: v.drop p)
    (hm : p + got.length ≤ q) : got <+: D.drop p := by
  have := List.prefix_iff_eq_take.1 hg
  rw [drop_take_agree hag hm] at this
  rw [this]
  exact List.take_prefix _ _

theorem rest_nil {v D : Bytes} {p : Nat} (hlen : v.length = D.length) : v.drop p = [] ↔ D.drop p = [] := by
  simp [List.drop_eq_nil_iff, hlen]

/-- A call that looks at bytes that are the same in both files. -/
theorem transfer {k : BufKind} {v D : Bytes} {p q : Nat} {a a' : Bool} {log log' : List RawEv} {op : StreamOp} {out : StreamOut}
    {f' : File} (hlen : v.length = D.length) (hag : ∀ x, p ≤ x → x < q → v[x]? = D[x]?) (hs : Stops D p q op)
    (h : Allowed k ⟨v, p, a, log⟩ op out f') :
    f'.data = v ∧ ∃ f'', Allowed k ⟨D, p, a', log'⟩ op out f'' ∧ f''.data = D ∧ f''.pos = f'.pos := by
  have hall := drop_agree (p := p) hlen hag
  have hpre := fun {got : Bytes} => prefix_agree (got := got) hag
  have hnil := rest_nil (p := p) hlen
  cases op with
  | read n =>
    by_cases c : k = .writer
    · simp only [Allowed, if_pos c] at h ⊢
      obtain ⟨rfl, rfl⟩ := h; exact ⟨rfl, _, ⟨rfl, rfl⟩, rfl, rfl⟩
    cases n with
    | none =>
      simp only [Allowed, File.rest, if_neg c] at h ⊢
      rw [hall hs] at h
      obtain ⟨rfl, rfl⟩ := h; exact ⟨rfl, _, ⟨rfl, rfl⟩, rfl, rfl⟩
    | some z =>
      simp only [Allowed, File.rest, if_neg c] at h ⊢
      by_cases c1 : z < -1
      · simp only [if_pos c1] at h ⊢
        obtain ⟨rfl, rfl⟩ := h; exact ⟨rfl, _, ⟨rfl, rfl⟩, rfl, rfl⟩
      simp only [if_neg c1] at h ⊢
      by_cases c2 : z = -1
      · simp only [if_pos c2] at h ⊢
        rw [hall (by rcases hs with hs | hs | hs <;> omega)] at h
        obtain ⟨rfl, rfl⟩ := h; exact ⟨rfl, _, ⟨rfl, rfl⟩, rfl, rfl⟩
      · simp only [if_neg c2] at h ⊢
        have e : (v.drop p).take z.toNat = (D.drop p).take z.toNat := by
          rcases hs with hs | hs | hs
          · rw [hall hs]
          · omega
          · exact drop_take_agree hag (by omega)
        rw [e] at h
        obtain ⟨rfl, rfl⟩ := h; exact ⟨rfl, _, ⟨rfl, rfl⟩, rfl, rfl⟩
  | read1 n =>
    simp only [Allowed, File.rest] at h ⊢
    by_cases c : k = .writer
    · simp only [if_pos c] at h ⊢
      obtain ⟨rfl, rfl⟩ := h; exact ⟨rfl, _, ⟨rfl, rfl⟩, rfl, rfl⟩
    simp only [if_neg c] at h ⊢
    by_cases c1 : n = 0
    · simp only [if_pos c1] at h ⊢
      obtain ⟨rfl, rfl⟩ := h; exact ⟨rfl, _, ⟨rfl, rfl⟩, rfl, rfl⟩
    simp only [if_neg c1] at h ⊢
    obtain ⟨got, h1, h2, h3, rfl, rfl⟩ := h
    refine ⟨rfl, _, ⟨got, ?_, fun e => hnil.1 (h2 e), h3, rfl, rfl⟩, rfl, rfl⟩
    rcases hs with hs | hs
    · rw [← hall hs]; exact h1
    · exact hpre h1 (by have := h3 hs.1; omega)
  | peek n =>
    simp only [Allowed, File.rest] at h ⊢
    rw [hall hs] at h
    by_cases c : k = .writer
    · simp only [if_pos c] at h ⊢
      obtain ⟨rfl, rfl⟩ := h; exact ⟨rfl, _, ⟨rfl, rfl⟩, rfl, rfl⟩
    simp only [if_neg c] at h ⊢
    obtain ⟨got, h1, h2, rfl, rfl⟩ := h; exact ⟨rfl, _, ⟨got, h1, h2, rfl, rfl⟩, rfl, rfl⟩
  | readline n =>
    simp only [Allowed, File.rest] at h ⊢
    by_cases hn0 : n = 0
    · simp only [if_pos hn0] at h ⊢
      obtain ⟨rfl, rfl⟩ := h; exact ⟨rfl, _, ⟨rfl, rfl⟩, rfl, rfl⟩
    simp only [if_neg hn0] at h ⊢
    by_cases c : k = .writer
    · simp only [if_pos c] at h ⊢
      obtain ⟨rfl, rfl⟩ := h; exact ⟨rfl, _, ⟨rfl, rfl⟩, rfl, rfl⟩
    simp only [if_neg c] at h ⊢
    obtain ⟨line, hl, rfl, rfl⟩ := h
    refine ⟨rfl, _, ⟨line, ?_, rfl, rfl⟩, rfl, rfl⟩
    have hp : line <+: D.drop p := by
      rcases hs with hs | hs | ⟨x, hx1, hx2, hx3⟩
      · rw [← hall hs]; exact hl.isPrefix
      · exact hpre hl.isPrefix (by have := hl.bound (by omega); omega)
      · refine hpre hl.isPrefix ?_
        have hxv : (v.drop p)[x - p]? = some 10 := by
          rw [List.getElem?_drop, show p + (x - p) = x by omega, hag x hx1 hx2, hx3]
        apply Nat.le_of_not_lt
        intro hc
        apply hl.single
        have hlt : x - p < line.length - 1 := by omega
        have : line.dropLast[x - p]? = some 10 := by
          rw [List.getElem?_dropLast, if_pos hlt]
          obtain ⟨t, ht⟩ := hl.isPrefix
          rw [← ht, List.getElem?_append_left (by omega)] at hxv
          exact hxv
        exact List.mem_of_getElem? this
    refine ⟨hp, hl.single, ?_, hl.bound⟩
    rcases hl.stop with h1 | h1 | h1
    · exact Or.inl h1
    · refine Or.inr (Or.inl (hp.eq_of_length ?_))
      rw [h1, List.length_drop, List.length_drop, hlen]
    · exact Or.inr (Or.inr h1)
  | tell =>
    obtain ⟨rfl, rfl⟩ := h
    exact ⟨rfl, _, ⟨rfl, rfl⟩, rfl, rfl⟩
  | flush =>
    obtain ⟨rfl, rfl⟩ := h
    exact ⟨rfl, _, ⟨rfl, rfl⟩, rfl, rfl⟩
  | size =>
    obtain ⟨rfl, rfl⟩ := h
    exact ⟨rfl, _, ⟨by dsimp only; rw [hlen], rfl⟩, rfl, rfl⟩
  | _ => exact hs.elim

/-! ## What a stream keeps for itself -/

/-- Byte `x` waits in the buffer. -/
def Pending (b : Buf) (x : Nat) : Prop := b.raw.pos ≤ x ∧ x < b.raw.pos + b.writeBuf.length

/-- The file with what waits in the buffer. -/
def overlay (b : Buf) : Bytes := writeAt (fun _ => 0) b.raw.data b.raw.pos b.writeBuf

/-- A stream of a disciplined program: what it has yet to write belongs to it and is in the array; what it has read ahead
is in the file, as far as it has it locked. -/
structure St (H : List Record) (s : Common) (i : Sid) (b : Buf) : Prop where
  live : Buf.Live b
  inside : b.readPos ≤ b.readBuf.length
  excl : b.readBuf = [] ∨ b.writeBuf = []
  reader : b.kind = .reader → b.writeBuf = []
  writer : b.kind = .writer → b.readBuf = []
  pos : s.pos i + b.extra = b.raw.pos + b.writeBuf.length
  own : ∀ x, Pending b x → Owns H i x ∧ s.data[x]? = b.writeBuf[x - b.raw.pos]?
  fresh : ∀ k, k < b.extra → Has H i (s.pos i + k) → (b.readBuf.drop b.readPos)[k]? = b.raw.data[s.pos i + k]?
  ahead : 0 < b.extra → b.raw.pos ≤ b.raw.data.length

theorem overlay_pending {b : Buf} {x : Nat} (h : Pending b x) : (overlay b)[x]? = b.writeBuf[x - b.raw.pos]? := by
  obtain ⟨h1, h2⟩ := h
  have hne : b.writeBuf ≠ [] := by intro e; rw [e] at h2; simp at h2; omega
  unfold overlay
  rw [getElem?_writeAt, if_neg hne, if_neg (by omega), if_pos h2]

theorem overlay_other {b : Buf} {x : Nat} (h : ¬ Pending b x) (hin : b.writeBuf ≠ [] → b.raw.pos + b.writeBuf.length ≤ b.raw.data.length) :
    (overlay b)[x]? = b.raw.data[x]? := by
  unfold overlay
  rw [getElem?_writeAt]
  split
  · rfl
  · rename_i hne
    have hpos : 0 < b.writeBuf.length := List.length_pos_iff.2 hne
    have := hin hne
    unfold Pending at h
    split
    · rw [if_pos (by omega)]
    · rw [if_neg (by omega)]

theorem overlay_length {b : Buf} (hin : b.writeBuf ≠ [] → b.raw.pos + b.writeBuf.length ≤ b.raw.data.length) :
    (overlay b).length = b.raw.data.length := by
  unfold overlay
  rw [length_writeAt]
  split
  · rfl
  · rename_i hne
    have := hin hne
    omega

/-- Writing the same bytes to the same place. -/
theorem put_agree {O D : Bytes} (hlen : O.length = D.length) {x : Nat} (h : O[x]? = D[x]?) (p : Nat) (d : Bytes) :
    (put O p d)[x]? = (put D p d)[x]? := by
  rw [put_eq, put_eq, getElem?_writeAt, getElem?_writeAt, hlen, h]

theorem put_outside {D : Bytes} {p x : Nat} {d : Bytes} (hin : d ≠ [] → p + d.length ≤ D.length) (h : ¬ (p ≤ x ∧ x < p + d.length)) :
    (put D p d)[x]? = D[x]? := by
  rw [put_eq, getElem?_writeAt]
  split
  · rfl
  · rename_i hne
    have := hin hne
    split
    · rw [if_pos (by omega)]
    · rw [if_neg (by omega)]

theorem put_length {D : Bytes} {p : Nat} {d : Bytes} (hin : d ≠ [] → p + d.length ≤ D.length) : (put D p d).length = D.length := by
  rw [put_eq, length_writeAt]
  split
  · rfl
  · rename_i hne
    have := hin hne
    omega

theorem put_none (D : Bytes) (p : Nat) : put D p [] = D := by simp [put]

theorem owns_has {H : List Record} {i : Sid} {x : Nat} (h : Owns H i x) : Has H i x := by
  obtain ⟨r, h1, h2, _, h3⟩ := h
  exact ⟨r, h1, h2, h3⟩

/-- A byte that a stream has locked is not owned by another one. -/
theorem apart {H : List Record} (hx : RecExclusion H) {i j : Sid} {x : Nat} (hne : j ≠ i) (h : Has H j x) : ¬ Owns H i x := by
  obtain ⟨r, h1, h2, h3⟩ := h
  rintro ⟨r', g1, g2, g3, g4⟩
  have := (hx r h1 r' g1 (by rw [h2, g2]; exact hne) ⟨x, h3, g4⟩).2
  rw [g3] at this
  cases this

theorem records_snoc (h : List RecItem) (it : RecItem) : records (h ++ [it]) = recStep (records h) it := by
  simp [records]

theorem items_snoc (h : List RecItem) (it : RecItem) : itemsOf (h ++ [it]) = itemsOf h ++ [it.item] := by
  simp [itemsOf]

/-! ## The invariant -/

/-- The streams and their file represent the array. -/
structure Inv (h : List RecItem) (w : Together) (s : Common) : Prop where
  isOpen : ∀ i, i ∈ openIn (itemsOf h) ↔ w.bufs i ≠ none
  kind : ∀ i b, w.bufs i = some b → s.kind i = b.kind
  st : ∀ i b, w.bufs i = some b → St (records h) s i (Together.load b w.file)
  asked : ∀ i b, w.bufs i = some b → lastOf (itemsOf h) i = some (.ask i) → b.readBuf = [] ∧ b.writeBuf = []
  flushed : ∀ i b, w.bufs i = some b → lastOf (itemsOf h) i = some (.did i .flush) → b.writeBuf = []
  length : w.file.length = s.data.length
  file : ∀ x, (∀ i b, w.bufs i = some b → ¬ Pending b x) → w.file[x]? = s.data[x]?
  exclusion : RecExclusion (records h)

namespace Inv

variable {h : List RecItem} {w : Together} {s : Common}

theorem start (d : Bytes) : Inv [] ⟨d, fun _ => none⟩ (.start d) :=
  ⟨by simp [itemsOf, openIn], nofun, nofun, nofun, nofun, rfl, fun _ _ => rfl, by intro a ha; simp [records] at ha⟩

theorem opened (hi : Inv h w s) {i : Sid} (ho : i ∈ openIn (itemsOf h)) : ∃ b, w.bufs i = some b := by
  have := (hi.isOpen i).1 ho
  cases hb : w.bufs i with
  | none => exact absurd hb this
  | some b => exact ⟨b, rfl⟩

/-- What waits in a buffer lies within the file. -/
theorem within (hi : Inv h w s) {i : Sid} {b : Buf} (hb : w.bufs i = some b) :
    (Together.load b w.file).writeBuf ≠ [] →
      (Together.load b w.file).raw.pos + (Together.load b w.file).writeBuf.length ≤ (Together.load b w.file).raw.data.length := by
  intro hne
  have hpos : 0 < b.writeBuf.length := List.length_pos_iff.2 hne
  have hp : Pending (Together.load b w.file) (b.raw.pos + b.writeBuf.length - 1) := by
    unfold Pending
    change b.raw.pos ≤ _ ∧ _ < b.raw.pos + b.writeBuf.length
    omega
  have h1 := ((hi.st i b hb).own _ hp).2
  change s.data[_]? = b.writeBuf[b.raw.pos + b.writeBuf.length - 1 - b.raw.pos]? at h1
  rw [List.getElem?_eq_getElem (show b.raw.pos + b.writeBuf.length - 1 - b.raw.pos < b.writeBuf.length by omega)] at h1
  obtain ⟨h2, _⟩ := List.getElem?_eq_some_iff.1 h1
  change b.raw.pos + b.writeBuf.length ≤ w.file.length
  rw [hi.length]
  omega

/-- Where no other stream has anything to write, the file with what this one has to write is the array. -/
theorem overlay_is (hi : Inv h w s) {i : Sid} {b : Buf} (hb : w.bufs i = some b) {x : Nat}
    (hno : ∀ j c, j ≠ i → w.bufs j = some c → ¬ Pending c x) : (overlay (Together.load b w.file))[x]? = s.data[x]? := by
  by_cases hp : Pending (Together.load b w.file) x
  · rw [overlay_pending hp, ((hi.st i b hb).own x hp).2]
  · rw [overlay_other hp (hi.within hb)]
    refine hi.file x fun j c hc => ?_
    by_cases hj : j = i
    · subst hj
      rw [hb] at hc
      cases hc
      exact hp
    · exact hno j c hj hc

theorem overlay_has (hi : Inv h w s) {i : Sid} {b : Buf} (hb : w.bufs i = some b) {x : Nat}
    (hh : Has (records h) i x) : (overlay (Together.load b w.file))[x]? = s.data[x]? :=
  hi.overlay_is hb fun j c hj hc hp => apart hi.exclusion (fun e => hj e.symm) hh ((hi.st j c hc).own x hp).1

theorem overlay_len (hi : Inv h w s) {i : Sid} {b : Buf} (hb : w.bufs i = some b) :
    (overlay (Together.load b w.file)).length = s.data.length := by
  rw [overlay_length (hi.within hb)]
  exact hi.length

/-- A call on one stream. -/
theorem one (hi : Inv h w s) {it : RecItem} {i : Sid} {b b' : Buf} {f : File}
    (hb : w.bufs i = some b) (hs : streamOf it.item = some i)
    (hopen : openStep (openIn (itemsOf h)) it.item = openIn (itemsOf h)) (hk : b'.kind = b.kind)
    (hst : St (recStep (records h) it) (s.after i f) i b')
    (hH : ∀ j, j ≠ i → ∀ x, (Has (recStep (records h) it) j x → Has (records h) j x) ∧
      (Owns (records h) j x → Owns (recStep (records h) it) j x))
    (hout : ∀ x, ¬ Owns (records h) i x → b'.raw.data[x]? = w.file[x]? ∧ f.data[x]? = s.data[x]?)
    (hl1 : b'.raw.data.length = w.file.length) (hl2 : f.data.length = s.data.length)
    (hc : ∀ x, ¬ Pending b' x → (∀ j c, j ≠ i → w.bufs j = some c → ¬ Pending c x) → b'.raw.data[x]? = f.data[x]?)
    (h3 : it.item = .ask i → b'.readBuf = [] ∧ b'.writeBuf = [])
    (h4 : it.item = .did i .flush → b'.writeBuf = [])
    (hx : RecExclusion (records (h ++ [it]))) : Inv (h ++ [it]) (w.keep i b') (s.after i f) := by
  constructor
  · intro j
    rw [items_snoc, openIn_snoc, hopen, hi.isOpen j]
    unfold Together.keep
    dsimp only
    by_cases hj : j = i
    · subst hj; simp [hb]
    · rw [if_neg hj]
  · intro j c hc
    unfold Together.keep at hc
    dsimp only at hc
    change s.kind j = c.kind
    by_cases hj : j = i
    · subst hj; rw [if_pos rfl] at hc; cases hc; rw [hk]; exact hi.kind _ _ hb
    · rw [if_neg hj] at hc; exact hi.kind _ _ hc
  · intro j c hc
    rw [records_snoc]
    unfold Together.keep at hc ⊢
    dsimp only at hc ⊢
    by_cases hj : j = i
    · subst hj
      rw [if_pos rfl] at hc
      cases hc
      rw [Together.load_same rfl]
      exact hst
    · rw [if_neg hj] at hc
      have hS := hi.st j c hc
      have hpos : (s.after i f).pos j = s.pos j := by simp [Common.after, hj]
      refine ⟨Together.load_live hS.live _, hS.inside, hS.excl, hS.reader, hS.writer, ?_, fun x hp => ?_, fun k hk hh => ?_,
        fun he => ?_⟩
      · rw [hpos]; exact hS.pos
      · obtain ⟨o1, o2⟩ := hS.own x hp
        refine ⟨(hH j hj x).2 o1, ?_⟩
        change f.data[x]? = _
        rw [(hout x (apart hi.exclusion hj (owns_has o1))).2]
        exact o2
      · rw [hpos] at hh ⊢
        have hh' := (hH j hj _).1 hh
        change _ = b'.raw.data[_]?
        rw [(hout _ (apart hi.exclusion hj hh')).1]
        exact hS.fresh k hk hh'
      · change _ ≤ b'.raw.data.length
        rw [hl1]
        exact hS.ahead he
  · intro j c hc hl
    rw [items_snoc, lastOf_snoc] at hl
    unfold Together.keep at hc
    dsimp only at hc
    by_cases hj : j = i
    · subst hj
      rw [if_pos rfl] at hc
      cases hc
      rw [if_pos hs] at hl
      exact h3 (Option.some.inj hl)
    · rw [if_neg hj] at hc
      rw [if_neg (by rw [hs]; intro he; exact hj (Option.some.inj he).symm)] at hl
      exact hi.asked j c hc hl
  · intro j c hc hl
    rw [items_snoc, lastOf_snoc] at hl
    unfold Together.keep at hc
    dsimp only at hc
    by_cases hj : j = i
    · subst hj
      rw [if_pos rfl] at hc
      cases hc
      rw [if_pos hs] at hl
      exact h4 (Option.some.inj hl)
    · rw [if_neg hj] at hc
      rw [if_neg (by rw [hs]; intro he; exact hj (Option.some.inj he).symm)] at hl
      exact hi.flushed j c hc hl
  · change b'.raw.data.length = f.data.length
    rw [hl1, hl2, hi.length]
  · intro x hno
    change b'.raw.data[x]? = f.data[x]?
    unfold Together.keep at hno
    dsimp only at hno
    refine hc x (hno i b' (if_pos rfl)) fun j c hj hc => hno j c (by rw [if_neg hj]; exact hc)
  · exact hx

/-- A call on one stream, that leaves a stream that represents the file with what was written. -/
theorem of_R (hi : Inv h w s) {it : RecItem} {i : Sid} {b b' : Buf} {f f' : File} {p : Nat} {d : Bytes}
    (hb : w.bufs i = some b) (hs : streamOf it.item = some i)
    (hopen : openStep (openIn (itemsOf h)) it.item = openIn (itemsOf h)) (hk : b'.kind = b.kind)
    (hr : Buf.R b' f') (hd : f'.data = put (overlay (Together.load b w.file)) p d) (hf : f.data = put s.data p d)
    (hfp : f.pos = f'.pos) (hge : w.file.length ≤ b'.raw.data.length)
    (hp : ∀ x, Pending b' x → Pending b x ∨ (p ≤ x ∧ x < p + d.length))
    (hown : ∀ x, p ≤ x → x < p + d.length → Owns (records h) i x) (hin : d ≠ [] → p + d.length ≤ s.data.length)
    (hO : ∀ x, Pending b' x → Owns (recStep (records h) it) i x)
    (hH : ∀ j, j ≠ i → ∀ x, (Has (recStep (records h) it) j x → Has (records h) j x) ∧
      (Owns (records h) j x → Owns (recStep (records h) it) j x))
    (h3 : it.item = .ask i → b'.readBuf = [] ∧ b'.writeBuf = [])
    (h4 : it.item = .did i .flush → b'.writeBuf = [])
    (hx : RecExclusion (records (h ++ [it]))) : Inv (h ++ [it]) (w.keep i b') (s.after i f) := by
  have hS := hi.st i b hb
  have hol := hi.overlay_len hb
  have hin' : d ≠ [] → p + d.length ≤ (overlay (Together.load b w.file)).length := fun hne => by rw [hol]; exact hin hne
  have hov : overlay b' = f'.data := hr.data.symm
  have hlen : f'.data.length = s.data.length := by rw [hd, put_length hin', hol]
  have hle : b'.raw.data.length ≤ s.data.length ∧ (b'.writeBuf ≠ [] → b'.raw.pos + b'.writeBuf.length ≤ s.data.length) := by
    have : (overlay b').length = s.data.length := by rw [hov, hlen]
    unfold overlay at this
    rw [length_writeAt] at this
    split at this
    · rename_i he; exact ⟨Nat.le_of_eq this, fun hne => absurd he hne⟩
    · exact ⟨by omega, fun _ => by omega⟩
  have hl1 : b'.raw.data.length = w.file.length := by have := hle.1; rw [← hi.length] at this; omega
  have hwin : b'.writeBuf ≠ [] → b'.raw.pos + b'.writeBuf.length ≤ b'.raw.data.length := fun hne => by
    rw [hl1, hi.length]; exact hle.2 hne
  have hpend : ∀ x, Pending b' x → Owns (records h) i x := fun x hx => by
    rcases hp x hx with h1 | h1
    · exact (hS.own x h1).1
    · exact hown x h1.1 h1.2
  refine hi.one hb hs hopen hk ⟨hr.live, hr.inside, hr.excl, hr.reader, hr.writer, ?_, fun x hpx => ⟨hO x hpx, ?_⟩, fun k hk hh => ?_,
    fun he => ?_⟩ hH (fun x hno => ⟨?_, ?_⟩) hl1 ?_ (fun x hno hoth => ?_) h3 h4 hx
  · have : (s.after i f).pos i = f.pos := by simp [Common.after]
    rw [this, hfp]; exact hr.pos
  · change f.data[x]? = _
    rw [hf, ← overlay_pending hpx, hov, hd]
    exact (put_agree hol (hi.overlay_has hb (owns_has (hpend x hpx))) p d).symm
  · have hpos : (s.after i f).pos i = f'.pos := by rw [← hfp]; simp [Common.after]
    rw [hpos]
    have hne : b'.readBuf ≠ [] := by intro e; simp [Buf.extra, e] at hk
    have he := hr.excl.resolve_left hne
    rw [hr.unread, List.getElem?_take, if_pos hk, hr.data' he]
    simp [File.rest]
  · have hne : b'.readBuf ≠ [] := by intro e; simp [Buf.extra, e] at he
    have hw := hr.excl.resolve_left hne
    have h1 := hr.extra_le
    have h2 := hr.pos' hw
    have h3 := hr.data' hw
    unfold File.rest at h1
    rw [List.length_drop, ← h3] at h1
    omega
  · have h1 : ¬ Pending b' x := fun hc => hno (hpend x hc)
    have h2 : ¬ Pending (Together.load b w.file) x := fun hc => hno (hS.own x hc).1
    have h3 : ¬ (p ≤ x ∧ x < p + d.length) := fun hc => hno (hown x hc.1 hc.2)
    rw [← overlay_other h1 hwin, hov, hd, put_outside hin' h3, overlay_other h2 (hi.within hb)]
    rfl
  · have h3 : ¬ (p ≤ x ∧ x < p + d.length) := fun hc => hno (hown x hc.1 hc.2)
    rw [hf, put_outside hin h3]
  · rw [hf, put_length hin]
  · rw [← overlay_other hno hwin, hov, hd, hf]
    exact put_agree hol (hi.overlay_is hb hoth) p d

/-- A call that changes neither the buffers nor the file. -/
theorem still (hi : Inv h w s) {it : RecItem} {i : Sid} {b b' : Buf} {f : File}
    (hb : w.bufs i = some b) (hs : streamOf it.item = some i)
    (hopen : openStep (openIn (itemsOf h)) it.item = openIn (itemsOf h))
    (hl : Buf.Live b') (hk : b'.kind = b.kind) (hd : b'.raw.data = w.file) (hpos : b'.raw.pos = b.raw.pos)
    (hrb : b'.readBuf = b.readBuf) (hrp : b'.readPos = b.readPos) (hwb : b'.writeBuf = b.writeBuf)
    (hf : f.data = s.data) (hfp : f.pos = s.pos i)
    (hO : ∀ x, Pending b x → Owns (recStep (records h) it) i x)
    (hF : b.readBuf ≠ [] → ∀ x, Has (recStep (records h) it) i x → Has (records h) i x)
    (hH : ∀ j, j ≠ i → ∀ x, (Has (recStep (records h) it) j x → Has (records h) j x) ∧
      (Owns (records h) j x → Owns (recStep (records h) it) j x))
    (h3 : it.item = .ask i → b'.readBuf = [] ∧ b'.writeBuf = [])
    (h4 : it.item = .did i .flush → b'.writeBuf = [])
    (hx : RecExclusion (records (h ++ [it]))) : Inv (h ++ [it]) (w.keep i b') (s.after i f) := by
  have hS := hi.st i b hb
  have hpp : ∀ x, Pending b' x ↔ Pending b x := fun x => by unfold Pending; rw [hpos, hwb]
  have hex : b'.extra = b.extra := by unfold Buf.extra; rw [hrb, hrp]
  have hps : (s.after i f).pos i = s.pos i := by simp [Common.after, hfp]
  refine hi.one hb hs hopen hk ⟨hl, ?_, ?_, ?_, ?_, ?_, fun x hpx => ⟨hO x ((hpp x).1 hpx), ?_⟩, fun k hk hh => ?_,
    fun he => ?_⟩ hH (fun x hno => ⟨by rw [hd], by rw [hf]⟩) (by rw [hd]) (by rw [hf]) (fun x hno hoth => ?_) h3 h4 hx
  · rw [hrb, hrp]; exact hS.inside
  · rw [hrb, hwb]; exact hS.excl
  · rw [hk, hwb]; exact hS.reader
  · rw [hk, hrb]; exact hS.writer
  · rw [hps, hex, hpos, hwb]; exact hS.pos
  · change f.data[x]? = _
    rw [hf, hwb, hpos]
    exact (hS.own x ((hpp x).1 hpx)).2
  · rw [hps] at hh ⊢
    rw [hrb, hrp, hd]
    rw [hex] at hk
    have hne : b.readBuf ≠ [] := by intro e; simp [Buf.extra, e] at hk
    exact hS.fresh k hk (hF hne _ hh)
  · rw [hex] at he
    rw [hpos, hd]; exact hS.ahead he
  · rw [hd, hf]
    refine hi.file x fun j c hc => ?_
    by_cases hj : j = i
    · subst hj
      rw [hb] at hc
      cases hc
      exact fun hc => hno ((hpp x).2 hc)
    · exact hoth j c hj hc

end Inv

end Rec

end Verif
