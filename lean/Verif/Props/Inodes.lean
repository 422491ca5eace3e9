import Verif.Model.Inodes
import Verif.Props.Dwords

/-!
# `unique_id`: C34
-/

set_option autoImplicit false

namespace Verif.Props

open Verif.Inodes

variable {N U : Type}

/-- The runs in which no descriptor of an open stream is closed (by its stream, it is closed after the stream). -/
inductive Clean (ident : N → Except Exn U) : Sys N U → Prop
  | init (n : N) : Clean ident (Inodes.init n)
  | step {w w' : Sys N U} (h : Clean ident w) (hs : Inodes.Step ident w w')
      (hc : ∀ s ∈ w'.streams, s.isOpen = true → w'.fds s.fd ≠ none) : Clean ident w'

theorem Clean.reach {ident : N → Except Exn U} {w : Sys N U} (h : Clean ident w) : Inodes.Reach ident w := by
  induction h with
  | init n => exact .init n
  | step _ hs _ ih => exact .step ih hs

/-- The results of `unique_id` agree with the cache. -/
def Cached (w : Sys N U) : Prop :=
  ∀ i u, (i, .ok u) ∈ w.log → ∃ s, w.streams[i]? = some s ∧ s.uid = some u

theorem Cached.step {ident : N → Except Exn U} {w w' : Sys N U} (h : Cached w) (hs : Inodes.Step ident w w') : Cached w' := by
  cases hs with
  | newStream d f hd =>
    intro i u hi
    obtain ⟨s, h1, h2⟩ := h i u hi
    refine ⟨s, ?_, h2⟩
    have hlt : i < w.streams.length := by
      rcases Nat.lt_or_ge i w.streams.length with hl | hl
      · exact hl
      · rw [List.getElem?_eq_none hl] at h1; cases h1
    change (w.streams ++ [_])[i]? = some s
    rw [List.getElem?_append_left hlt, h1]
  | closeStream j s hj =>
    intro i u hi
    obtain ⟨s', h1, h2⟩ := h i u hi
    by_cases hij : j = i
    · subst hij
      rw [hj] at h1; cases h1
      refine ⟨{ s with isOpen := false }, ?_, h2⟩
      change (w.streams.set j _)[j]? = _
      rw [List.getElem?_set_self' , hj]
      rfl
    · refine ⟨s', ?_, h2⟩
      change (w.streams.set j _)[i]? = _
      rw [List.getElem?_set_ne hij, h1]
  | uniqueId j s err hj =>
    intro i u hi
    have hset : (w.streams.set j { s with uid := (Inodes.uniqueId s (innerUniqueId ident w s.fd err)).2 })[j]? =
        some { s with uid := (Inodes.uniqueId s (innerUniqueId ident w s.fd err)).2 } := by
      rw [List.getElem?_set_self', hj]; rfl
    rcases List.mem_cons.1 hi with hi | hi
    · injection hi with h1 h2
      subst h1
      refine ⟨_, hset, ?_⟩
      revert h2
      generalize innerUniqueId ident w s.fd err = st
      unfold Inodes.uniqueId
      split
      · intro h2; cases h2
      · split
        · intro h2; cases h2; assumption
        · split
          · intro h2; cases h2; rfl
          · intro h2; cases h2
    · obtain ⟨s', h1, h2⟩ := h i u hi
      by_cases hij : j = i
      · subst hij
        rw [hj] at h1; cases h1
        refine ⟨_, hset, ?_⟩
        simp only [Inodes.uniqueId, h2]
        split <;> rfl
      · refine ⟨s', ?_, h2⟩
        change (w.streams.set j _)[i]? = _
        rw [List.getElem?_set_ne hij, h1]
  | create | unlink | link | rename | openFd | dup | closeFd => exact h

theorem reach_cached {ident : N → Except Exn U} {w : Sys N U} (h : Inodes.Reach ident w) : Cached w := by
  induction h with
  | init n => intro i u hi; cases hi
  | step _ hs ih => exact ih.step hs

/-- C34: all calls of `unique_id` on one stream that return, return the same value, whatever happens to names and
descriptors in between. -/
theorem C34_constant {ident : N → Except Exn U} {w : Sys N U} (h : Inodes.Reach ident w) (i : Nat) (u v : U)
    (hu : (i, .ok u) ∈ w.log) (hv : (i, .ok v) ∈ w.log) : u = v := by
  obtain ⟨s, h1, h2⟩ := reach_cached h i u hu
  obtain ⟨s', h3, h4⟩ := reach_cached h i v hv
  rw [h1] at h3
  cases h3
  rw [h2] at h4
  cases h4
  rfl

structure Good (ident : N → Except Exn U) (w : Sys N U) : Prop where
  bound : ∀ f, Live w f → f < w.serial
  uniq : ∀ f g, Live w f → Live w g → w.number f = w.number g → f = g
  fds : ∀ s ∈ w.streams, s.isOpen = true → w.fds s.fd = some s.file
  old : ∀ s ∈ w.streams, s.file < w.serial
  uid : ∀ s ∈ w.streams, ∀ u, s.uid = some u → ident (w.number s.file) = .ok u

/-- A step that makes no file, and no reference to a file that is not alive. -/
theorem Good.keep {ident : N → Except Exn U} {w w' : Sys N U} (h : Good ident w) (hn : w'.number = w.number)
    (hs : w'.serial = w.serial) (hl : ∀ f, Live w' f → Live w f)
    (hf : ∀ s ∈ w'.streams, s.isOpen = true → w'.fds s.fd = some s.file)
    (ho : ∀ s ∈ w'.streams, s.file < w.serial)
    (hu : ∀ s ∈ w'.streams, ∀ u, s.uid = some u → ident (w.number s.file) = .ok u) : Good ident w' where
  bound f hf := hs ▸ h.bound f (hl f hf)
  uniq f g h1 h2 he := h.uniq f g (hl f h1) (hl g h2) (by rw [hn] at he; exact he)
  fds := hf
  old s hm := hs ▸ ho s hm
  uid s hm u he := hn ▸ hu s hm u he

theorem update_some {α β : Type} [DecidableEq α] {f : α → Option β} {a x : α} {b : Option β} {c : β}
    (h : update f a b x = some c) : (x = a ∧ b = some c) ∨ (x ≠ a ∧ f x = some c) := by
  unfold update at h
  split at h
  · exact .inl ⟨‹_›, h⟩
  · exact .inr ⟨‹_›, h⟩

theorem update_other {α β : Type} [DecidableEq α] (f : α → β) {a x : α} (b : β) (h : x ≠ a) : update f a b x = f x := by
  simp [update, h]

theorem Good.step {ident : N → Except Exn U} {w w' : Sys N U} (h : Good ident w) (hs : Inodes.Step ident w w')
    (hc : ∀ s ∈ w'.streams, s.isOpen = true → w'.fds s.fd ≠ none) : Good ident w' := by
  cases hs with
  | create name n hn hfresh =>
    have hlive : ∀ f, Live { w with
        number := update w.number w.serial n
        serial := w.serial + 1
        names := update w.names name (some w.serial) } f → f = w.serial ∨ (Live w f ∧ f ≠ w.serial) := by
      intro f hf
      have hold : Live w f → f = w.serial ∨ (Live w f ∧ f ≠ w.serial) := fun hl =>
        .inr ⟨hl, by have := h.bound f hl; omega⟩
      rcases hf with ⟨m, hm⟩ | ⟨d, hd⟩
      · rcases update_some hm with ⟨_, h2⟩ | ⟨_, h2⟩
        · cases h2; exact .inl rfl
        · exact hold (.inl ⟨m, h2⟩)
      · exact hold (.inr ⟨d, hd⟩)
    constructor
    · intro f hf
      rcases hlive f hf with rfl | ⟨hl, _⟩
      · exact Nat.lt_succ_self _
      · exact Nat.lt_succ_of_lt (h.bound f hl)
    · intro f g hf hg he
      simp only [update] at he
      rcases hlive f hf with rfl | ⟨hlf, hnf⟩ <;> rcases hlive g hg with rfl | ⟨hlg, hng⟩
      · rfl
      · rw [if_pos rfl, if_neg hng] at he
        exact absurd he.symm (hfresh g hlg)
      · rw [if_pos rfl, if_neg hnf] at he
        exact absurd he (hfresh f hlf)
      · rw [if_neg hnf, if_neg hng] at he
        exact h.uniq f g hlf hlg he
    · exact h.fds
    · exact fun s hm => Nat.lt_succ_of_lt (h.old s hm)
    · intro s hm u hu
      have := h.old s hm
      change ident (update w.number w.serial n s.file) = _
      rw [update_other _ _ (by omega)]
      exact h.uid s hm u hu
  | unlink name =>
    refine h.keep rfl rfl ?_ h.fds h.old h.uid
    rintro f (⟨m, hm⟩ | ⟨d, hd⟩)
    · rcases update_some hm with ⟨_, h2⟩ | ⟨_, h2⟩
      · cases h2
      · exact .inl ⟨m, h2⟩
    · exact .inr ⟨d, hd⟩
  | link old new f ho hn =>
    refine h.keep rfl rfl ?_ h.fds h.old h.uid
    rintro f' (⟨m, hm⟩ | ⟨d, hd⟩)
    · rcases update_some hm with ⟨_, h2⟩ | ⟨_, h2⟩
      · cases h2; exact .inl ⟨old, ho⟩
      · exact .inl ⟨m, h2⟩
    · exact .inr ⟨d, hd⟩
  | rename old new f ho =>
    refine h.keep rfl rfl ?_ h.fds h.old h.uid
    rintro f' (⟨m, hm⟩ | ⟨d, hd⟩)
    · rcases update_some hm with ⟨_, h2⟩ | ⟨_, h2⟩
      · cases h2; exact .inl ⟨old, ho⟩
      · rcases update_some h2 with ⟨_, h3⟩ | ⟨_, h3⟩
        · cases h3
        · exact .inl ⟨m, h3⟩
    · exact .inr ⟨d, hd⟩
  | openFd name d f hn hd =>
    refine h.keep rfl rfl ?_ ?_ h.old h.uid
    · rintro f' (⟨m, hm⟩ | ⟨d', hd'⟩)
      · exact .inl ⟨m, hm⟩
      · rcases update_some hd' with ⟨_, h2⟩ | ⟨_, h2⟩
        · cases h2; exact .inl ⟨name, hn⟩
        · exact .inr ⟨d', h2⟩
    · intro s hm ho
      have := h.fds s hm ho
      refine (update_other w.fds (some f) ?_).trans this
      rintro rfl
      rw [hd] at this
      cases this
  | dup d0 d f h0 hd =>
    refine h.keep rfl rfl ?_ ?_ h.old h.uid
    · rintro f' (⟨m, hm⟩ | ⟨d', hd'⟩)
      · exact .inl ⟨m, hm⟩
      · rcases update_some hd' with ⟨_, h2⟩ | ⟨_, h2⟩
        · cases h2; exact .inr ⟨d0, h0⟩
        · exact .inr ⟨d', h2⟩
    · intro s hm ho
      have := h.fds s hm ho
      refine (update_other w.fds (some f) ?_).trans this
      rintro rfl
      rw [hd] at this
      cases this
  | closeFd d =>
    refine h.keep rfl rfl ?_ ?_ h.old h.uid
    · rintro f' (⟨m, hm⟩ | ⟨d', hd'⟩)
      · exact .inl ⟨m, hm⟩
      · rcases update_some hd' with ⟨_, h2⟩ | ⟨_, h2⟩
        · cases h2
        · exact .inr ⟨d', h2⟩
    · intro s hm ho
      have h1 := hc s hm ho
      have h2 := h.fds s hm ho
      refine (update_other w.fds none ?_).trans h2
      intro he
      exact h1 (by change update w.fds d none s.fd = none; simp [update, he])
  | newStream d f hd =>
    refine h.keep rfl rfl (fun _ hl => hl) ?_ ?_ ?_
    · intro s hm ho
      rcases List.mem_append.1 hm with hm | hm
      · exact h.fds s hm ho
      · rw [List.mem_singleton.1 hm]; exact hd
    · intro s hm
      rcases List.mem_append.1 hm with hm | hm
      · exact h.old s hm
      · rw [List.mem_singleton.1 hm]; exact h.bound f (.inr ⟨d, hd⟩)
    · intro s hm u hu
      rcases List.mem_append.1 hm with hm | hm
      · exact h.uid s hm u hu
      · rw [List.mem_singleton.1 hm] at hu; cases hu
  | closeStream i s0 hi =>
    have hm0 := List.mem_of_getElem? hi
    refine h.keep rfl rfl (fun _ hl => hl) ?_ ?_ ?_
    · intro s hm ho
      rcases List.mem_or_eq_of_mem_set hm with hm | rfl
      · exact h.fds s hm ho
      · cases ho
    · intro s hm
      rcases List.mem_or_eq_of_mem_set hm with hm | rfl
      · exact h.old s hm
      · exact h.old s0 hm0
    · intro s hm u hu
      rcases List.mem_or_eq_of_mem_set hm with hm | rfl
      · exact h.uid s hm u hu
      · exact h.uid s0 hm0 u hu
  | uniqueId i s0 err hi =>
    have hm0 := List.mem_of_getElem? hi
    refine h.keep rfl rfl (fun _ hl => hl) ?_ ?_ ?_
    · intro s hm ho
      rcases List.mem_or_eq_of_mem_set hm with hm | rfl
      · exact h.fds s hm ho
      · exact h.fds s0 hm0 ho
    · intro s hm
      rcases List.mem_or_eq_of_mem_set hm with hm | rfl
      · exact h.old s hm
      · exact h.old s0 hm0
    · intro s hm u hu
      rcases List.mem_or_eq_of_mem_set hm with hm | rfl
      · exact h.uid s hm u hu
      · change ident (w.number s0.file) = .ok u
        change (Inodes.uniqueId s0 (innerUniqueId ident w s0.fd err)).2 = some u at hu
        cases hcache : s0.uid with
        | some v =>
          have : v = u := by
            simp only [Inodes.uniqueId, hcache] at hu
            split at hu <;> cases hu <;> rfl
          rw [← this]
          exact h.uid s0 hm0 v hcache
        | none =>
          by_cases ho : s0.isOpen = true
          · have hfd := h.fds s0 hm0 ho
            simp only [Inodes.uniqueId, hcache, ho, not_true, if_false] at hu
            split at hu
            · rename_i v hv
              cases hu
              cases err with
              | some e => cases hv
              | none =>
                rw [show innerUniqueId ident w s0.fd none = ident (w.number s0.file) by
                  unfold innerUniqueId; rw [hfd]] at hv
                exact hv
            · cases hu
          · simp only [Inodes.uniqueId, ho, hcache] at hu
            simp at hu

theorem Clean.good {ident : N → Except Exn U} {w : Sys N U} (h : Clean ident w) : Good ident w := by
  induction h with
  | init n =>
    constructor
    · rintro f (⟨_, h⟩ | ⟨_, h⟩) <;> cases h
    · rintro f g (⟨_, h⟩ | ⟨_, h⟩) <;> cases h
    · intro s hs; cases hs
    · intro s hs; cases hs
    · intro s hs; cases hs
  | step _ hs hc ih => exact ih.step hs hc

/-- C34: in all histories of creations, removals, renamings, links, openings and closings, two streams that are both open
got equal values from `unique_id` exactly if their descriptors are on the same file.  `ident` must tell different numbers
of the OS apart (`C34_unix`, `C34_windows`). -/
theorem C34_same_file {ident : N → Except Exn U} (hinj : ∀ a b u, ident a = .ok u → ident b = .ok u → a = b)
    {w : Sys N U} (h : Clean ident w) {i j : Nat} {s t : St U} (hs : w.streams[i]? = some s) (ht : w.streams[j]? = some t)
    (hso : s.isOpen = true) (hto : t.isOpen = true) {u v : U} (hu : (i, .ok u) ∈ w.log) (hv : (j, .ok v) ∈ w.log) :
    u = v ↔ w.fds s.fd = w.fds t.fd := by
  obtain ⟨s', h1, h2⟩ := reach_cached h.reach i u hu
  obtain ⟨t', h3, h4⟩ := reach_cached h.reach j v hv
  rw [hs] at h1
  rw [ht] at h3
  cases h1
  cases h3
  have g := h.good
  have hms := List.mem_of_getElem? hs
  have hmt := List.mem_of_getElem? ht
  have fs := g.fds s hms hso
  have ft := g.fds t hmt hto
  have us := g.uid s hms u h2
  have ut := g.uid t hmt v h4
  rw [fs, ft]
  constructor
  · rintro rfl
    rw [g.uniq s.file t.file (.inr ⟨_, fs⟩) (.inr ⟨_, ft⟩) (hinj _ _ _ us ut)]
  · intro he
    injection he with he
    rw [he, ut] at us
    injection us with us
    exact us.symm

/-- C34: the file of an open stream remains the one that it was opened on, whatever happens to the path. -/
theorem C34_file {ident : N → Except Exn U} {w : Sys N U} (h : Clean ident w) {s : St U} (hs : s ∈ w.streams)
    (ho : s.isOpen = true) : w.fds s.fd = some s.file := h.good.fds s hs ho

/-- C34 on unix: device and inode. -/
theorem C34_unix {w : Sys Uid Uid} (h : Clean unixIdent w) {i j : Nat} {s t : St Uid} (hs : w.streams[i]? = some s)
    (ht : w.streams[j]? = some t) (hso : s.isOpen = true) (hto : t.isOpen = true) {u v : Uid} (hu : (i, .ok u) ∈ w.log)
    (hv : (j, .ok v) ∈ w.log) : u = v ↔ w.fds s.fd = w.fds t.fd :=
  C34_same_file (by intro a b u ha hb; cases ha; cases hb; rfl) h hs ht hso hto hu hv

theorem windowsIdent_injective (a b : Fin (2 ^ 32) × Fin (2 ^ 32) × Fin (2 ^ 32)) (u : Int × Int)
    (ha : windowsIdent a = .ok u) (hb : windowsIdent b = .ok u) : a = b := by
  obtain ⟨⟨a1, ha1⟩, ⟨a2, ha2⟩, ⟨a3, ha3⟩⟩ := a
  obtain ⟨⟨b1, hb1⟩, ⟨b2, hb2⟩, ⟨b3, hb3⟩⟩ := b
  simp only [windowsIdent, winUniqueId] at ha hb
  split at ha
  · rename_i u1 h1
    split at hb
    · rename_i u2 h2
      split at h1
      · cases h1
      · split at h2
        · cases h2
        · cases ha
          cases hb
          cases h1
          simp only [Option.some.injEq, Prod.mk.injEq] at h2
          obtain ⟨e1, e2⟩ := h2
          have := C55_injective b2 b3 a2 a3 32 hb2 hb3 ha2 ha3 e2
          obtain ⟨e3, e4⟩ := this
          have e1' : b1 = a1 := Int.ofNat_inj.1 e1
          subst e1' e3 e4
          rfl
    · cases hb
  · cases ha

/-- C34 on windows: volume and 64-bit file index. -/
theorem C34_windows {w : Sys (Fin (2 ^ 32) × Fin (2 ^ 32) × Fin (2 ^ 32)) (Int × Int)} (h : Clean windowsIdent w) {i j : Nat}
    {s t : St (Int × Int)} (hs : w.streams[i]? = some s) (ht : w.streams[j]? = some t) (hso : s.isOpen = true)
    (hto : t.isOpen = true) {u v : Int × Int} (hu : (i, .ok u) ∈ w.log) (hv : (j, .ok v) ∈ w.log) :
    u = v ↔ w.fds s.fd = w.fds t.fd :=
  C34_same_file windowsIdent_injective h hs ht hso hto hu hv

/-- C34: a call on an open stream whose value is cached makes no system call: it returns although `fstat` would fail. -/
theorem C34_cached (s : St U) (u : U) (ho : s.isOpen = true) (hu : s.uid = some u) (stat : Except Exn U) :
    Inodes.uniqueId s stat = (.ok u, some u) := by
  simp [Inodes.uniqueId, ho, hu]

/-- The hypotheses can be met: a file is opened, its name is removed and given to another file, which is opened too; the
two streams have different values. -/
example : ∃ (w : Sys Uid Uid) (s t : St Uid), Clean unixIdent w ∧ w.streams = [s, t] ∧ s.isOpen = true ∧ t.isOpen = true ∧
    w.log = [(1, .ok (1, 2)), (0, .ok (1, 1))] ∧ w.fds s.fd ≠ w.fds t.fd := by
  have h0 : Clean unixIdent (Inodes.init (0, 0)) := .init _
  have h1 := h0.step (.create _ "a" (1, 1) rfl (by rintro f (⟨_, h⟩ | ⟨_, h⟩) <;> cases h)) (by intro s hs; cases hs)
  have h2 := h1.step (.openFd _ "a" 3 0 rfl rfl) (by intro s hs; cases hs)
  have h3 := h2.step (.newStream _ 3 0 rfl) (by simp [Inodes.init, update])
  have h4 := h3.step (.uniqueId _ 0 _ none rfl) (by simp [Inodes.init, update])
  have h5 := h4.step (.unlink _ "a") (by simp [Inodes.init, update])
  have h6 := h5.step (.create _ "a" (1, 2) rfl (by
    rintro f (⟨_, h⟩ | ⟨_, h⟩)
    · rcases update_some h with ⟨_, h⟩ | ⟨h1, h⟩
      · cases h
      · rcases update_some h with ⟨h2, _⟩ | ⟨_, h⟩
        · exact absurd h2 h1
        · cases h
    · rcases update_some h with ⟨_, h⟩ | ⟨_, h⟩
      · cases h; decide
      · cases h)) (by simp [Inodes.init, update])
  have h7 := h6.step (.openFd _ "a" 4 1 rfl rfl) (by simp [Inodes.init, update])
  have h8 := h7.step (.newStream _ 4 1 rfl) (by simp [Inodes.init, update])
  have h9 := h8.step (.uniqueId _ 1 _ none rfl) (by simp [Inodes.init, update])
  exact ⟨_, _, _, h9, rfl, rfl, rfl, rfl, by simp [update]⟩

/-- The claim of `C34_same_file` without the condition that descriptors of open streams stay open. -/
def SameFileAlways : Prop :=
  ∀ (w : Sys Uid Uid) (i j : Nat) (s t : St Uid) (u v : Uid), Inodes.Reach unixIdent w → w.streams[i]? = some s →
    w.streams[j]? = some t → s.isOpen = true → t.isOpen = true → (i, .ok u) ∈ w.log → (j, .ok v) ∈ w.log →
    (u = v ↔ w.fds s.fd = w.fds t.fd)

/-- It is false: the value is cached, so when the descriptor of a stream is closed behind its back and reused for another
file, the stream goes on to report the identity of the old file. -/
theorem C34_closed_refuted : ¬ SameFileAlways := by
  intro h
  have h0 : Inodes.Reach unixIdent (Inodes.init (0, 0)) := .init _
  have h1 := h0.step (.create _ "a" (1, 1) rfl (by rintro f (⟨_, h⟩ | ⟨_, h⟩) <;> cases h))
  have h2 := h1.step (.openFd _ "a" 3 0 rfl rfl)
  have h3 := h2.step (.newStream _ 3 0 rfl)
  have h4 := h3.step (.uniqueId _ 0 _ none rfl)
  have h5 := h4.step (.closeFd _ 3)
  have h6 := h5.step (.create _ "b" (1, 2) rfl (by
    rintro f (⟨_, h⟩ | ⟨_, h⟩)
    · rcases update_some h with ⟨_, h⟩ | ⟨h1, h⟩
      · cases h; decide
      · cases h
    · rcases update_some h with ⟨_, h⟩ | ⟨h1, h⟩
      · cases h
      · rcases update_some h with ⟨h2, _⟩ | ⟨_, h⟩
        · exact absurd h2 h1
        · cases h))
  have h7 := h6.step (.openFd _ "b" 3 1 rfl rfl)
  have h8 := h7.step (.newStream _ 3 1 rfl)
  have h9 := h8.step (.uniqueId _ 1 _ none rfl)
  have := h _ 0 1 _ _ (1, 1) (1, 2) h9 rfl rfl rfl rfl (by simp [Inodes.uniqueId, innerUniqueId, unixIdent, Inodes.init, update])
    (by simp [Inodes.uniqueId, innerUniqueId, unixIdent, Inodes.init, update])
  exact absurd (this.2 rfl) (by decide)

end Verif.Props
