import Verif.Spec.Concurrent
import Verif.Lemmas.ConcurrentReads

/-!
# The actions of a call, put together
-/

set_option autoImplicit false

namespace Verif

open Spec

variable {S : Setting} {k : Job}

/-- `Actions`, from the other end. -/
inductive Leads (S : Setting) (k : Job) : Phase S.codec → Bytes → Phase S.codec → Bytes → Prop
  | none {ph : Phase S.codec} {file : Bytes} : Leads S k ph file ph file
  | head {ph ph₁ ph₂ : Phase S.codec} {file file₁ file₂ : Bytes} : k.work S file ph = some (ph₁, file₁) →
      Leads S k ph₁ file₁ ph₂ file₂ → Leads S k ph file ph₂ file₂

theorem Leads.snoc {ph ph₁ ph₂ : Phase S.codec} {file file₁ file₂ : Bytes} (h : Leads S k ph file ph₁ file₁)
    (hw : k.work S file₁ ph₁ = some (ph₂, file₂)) : Leads S k ph file ph₂ file₂ := by
  induction h with
  | none => exact .head hw .none
  | head h1 _ ih => exact .head h1 (ih hw)

theorem Spec.Actions.leads {x y : Phase S.codec × Bytes} (h : Actions S k x y) : Leads S k x.1 x.2 y.1 y.2 := by
  induction h with
  | none => exact .none
  | next _ hw ih => exact ih.snoc hw

/-- The stream is closed after the body returned or raised `r₀`. -/
def Closes (s : AnyStream S.codec) (r₀ r : Result) (c : Bytes) : Prop :=
  ∃ q s₂, AnyStream.close s = (q, s₂) ∧ r = q.bind (fun _ => r₀) ∧ c = s₂.theRaw.data

/-- What is left to do. -/
def Rest (S : Setting) (k : Job) (s : AnyStream S.codec) (r : Result) (c : Bytes) : Todo → Prop
  | .closing r₀ => Closes s r₀ r c
  | .syncing => ∃ q s₁, AnyStream.sync S.fdatasync s = (q, s₁) ∧ Closes s₁ (q.map fun _ => none) r c
  | .flushing => ∃ q s₁, (do AnyStream.flush; PyM.when k.sync (AnyStream.sync S.fdatasync) : PyM _ _) s = (q, s₁) ∧
      Closes s₁ (q.map fun _ => none) r c
  | .writing => ∃ q s₁, Site.writeBody S.fdatasync k.data k.sync s = (q, s₁) ∧ Closes s₁ (q.map fun _ => none) r c
  | .reading l => ∃ q s₁, Blocks s q s₁ ∧
      Closes s₁ (q.bind fun l' => (Chunk.join k.task.binary (l ++ l')).map some) r c

theorem Leads.rest {ph ph' : Phase S.codec} {file c : Bytes} (h : Leads S k ph file ph' c) :
    ∀ s todo r, ph = .inside s todo → file = s.theRaw.data → ph' = .leaving r → Rest S k s r c todo := by
  induction h with
  | none => intro s todo r h1 _ h2; rw [h1] at h2; cases h2
  | @head ph ph₁ ph₂ file file₁ file₂ hw hl ih =>
    intro s todo r h1 h2 h3
    subst h1 h2 h3
    simp only [Job.work, Job.see_same] at hw
    cases todo with
    | closing r₀ =>
      simp only [Job.method, PyM.bind_apply] at hw
      generalize hc : AnyStream.close s = x at hw
      obtain ⟨q, s₂⟩ := x
      cases q with
      | ok u =>
        cases hw
        cases hl with
        | none => exact ⟨_, _, hc, rfl, rfl⟩
        | head hw' _ => cases hw'
      | error e =>
        cases hw
        cases hl with
        | none => exact ⟨_, _, hc, rfl, rfl⟩
        | head hw' _ => cases hw'
    | syncing =>
      simp only [Job.method, PyM.bind_apply] at hw
      generalize hc : AnyStream.sync S.fdatasync s = x at hw
      obtain ⟨q, s₂⟩ := x
      cases q <;> cases hw <;> exact ⟨_, _, hc, ih _ _ _ rfl rfl rfl⟩
    | flushing =>
      simp only [Job.method, PyM.bind_apply] at hw
      generalize hc : AnyStream.flush s = x at hw
      obtain ⟨q, s₁⟩ := x
      cases q with
      | error e => cases hw; exact ⟨_, _, PyM.bind_error hc, ih _ _ _ rfl rfl rfl⟩
      | ok u =>
        cases hw
        have : Rest S k s₁ r file₂ (if k.sync then .syncing else .closing (.ok Option.none)) := ih _ _ _ rfl rfl rfl
        split at this
        · rename_i hs
          obtain ⟨q, s₂, g1, g2⟩ := this
          refine ⟨q, s₂, ?_, g2⟩
          rw [PyM.bind_ok hc]
          simp only [PyM.when, hs, if_true, g1]
          cases q <;> rfl
        · rename_i hs
          refine ⟨.ok (), s₁, ?_, this⟩
          rw [PyM.bind_ok hc]
          simp [PyM.when, hs]
    | writing =>
      simp only [Job.method, PyM.bind_apply] at hw
      generalize hc : AnyStream.write k.data s = x at hw
      obtain ⟨q, s₁⟩ := x
      cases q with
      | error e => cases hw; exact ⟨_, _, PyM.bind_error hc, ih _ _ _ rfl rfl rfl⟩
      | ok u =>
        cases hw
        obtain ⟨q, s₂, g1, g2⟩ := ih _ _ _ rfl rfl rfl
        exact ⟨q, s₂, (PyM.bind_ok hc).trans g1, g2⟩
    | reading l =>
      simp only [Job.method] at hw
      generalize hc : AnyStream.read s = x at hw
      obtain ⟨q, s₁⟩ := x
      cases q with
      | error e => cases hw; exact ⟨_, _, .fail hc, ih _ _ _ rfl rfl rfl⟩
      | ok x =>
        cases hw
        cases x with
        | none =>
          have : Rest S k s₁ r file₂ (.closing ((Chunk.join k.task.binary l).map some)) := ih _ _ _ rfl rfl rfl
          exact ⟨.ok [], _, .done hc nofun, by simpa only [Except.bind, List.append_nil, Rest] using this⟩
        | some c =>
          have : Rest S k s₁ r file₂ (if c.falsy then .closing ((Chunk.join k.task.binary l).map some)
            else .reading (l ++ [c])) := ih _ _ _ rfl rfl rfl
          split at this
          · rename_i hf
            exact ⟨.ok [], _, .done hc (by intro c' e; cases e; exact hf),
              by simpa only [Except.bind, List.append_nil, Rest] using this⟩
          · rename_i hf
            obtain ⟨q, s₂, g1, g2⟩ := this
            refine ⟨_, s₂, .more hc (by simpa using hf) g1, ?_⟩
            cases q with
            | error e => exact g2
            | ok l' =>
              simp only [Except.bind, Except.map, List.append_assoc, List.singleton_append] at g2 ⊢
              exact g2

theorem tell_state (b : Buf) : (Buf.tell b).2 = b := by
  unfold Buf.tell Raw.tell Raw.checkClosed Raw.innerTell
  by_cases h1 : b.raw.closed = true <;> by_cases h2 : b.raw.seekable = true <;>
    simp [PyM.bind_apply, Buf.onRaw, h1, h2]

theorem configure_buf {C : Codec} (t : Txt C) : (Txt.configure t).2.buf = t.buf := by
  have ht := tell_state t.buf
  unfold Txt.configure
  split
  · have hw : ∃ w, Txt.writable t = (w, t) := by
      unfold Txt.writable
      split
      · exact ⟨_, rfl⟩
      · split <;> exact ⟨_, rfl⟩
    obtain ⟨w, hw⟩ := hw
    cases w with
    | error e => rw [PyM.bind_error hw]
    | ok w =>
      rw [PyM.bind_ok hw]
      cases w with
      | false => rfl
      | true =>
        simp only [if_true, PyM.bind_apply, Txt.onBuf]
        generalize Buf.tell t.buf = x at ht
        obtain ⟨x, b⟩ := x
        dsimp only at ht
        subst ht
        cases x with
        | error e => rfl
        | ok p =>
          simp only [PyM.when]
          split <;> rfl
  · rfl

theorem prepare_data {pos : Nat} {file c : Bytes} {s : AnyStream S.codec} (h : k.prepare S pos file = (.ok s, c)) :
    c = s.theRaw.data := by
  have hl : ∀ raw : Raw, k.layers S raw = .ok s → s.theRaw.data = raw.data := by
    intro raw h
    unfold Job.layers at h
    split at h
    · split at h <;> cases h; rfl
    · split at h
      · cases h
      · rename_i b hb
        have hr : b.raw = raw := by
          unfold Buf.create at hb
          (repeat' split at hb) <;> cases hb <;> rfl
        split at h
        · cases h; exact congrArg Raw.data hr
        · generalize hc : Txt.create (C := S.codec) _ _ _ b = x at h
          obtain ⟨r, t⟩ := x
          cases r with
          | error e => cases h
          | ok u =>
            cases h
            unfold Txt.create at hc
            split at hc
            · cases hc
            · have := configure_buf (C := S.codec)
                ⟨b, k.newline.getD .auto, k.line, S.linesep, b.raw.seekable, b.raw.seekable, none, none, [], 0, none, (0, 0)⟩
              rw [hc] at this
              dsimp only at this
              change t.buf.raw.data = _
              rw [this, hr]
  unfold Job.prepare at h
  split at h
  · split at h
    · cases h
    · rename_i s' _
      obtain ⟨h1, h2⟩ := Prod.mk.inj h
      rw [← h2, hl _ h1]
  · obtain ⟨h1, h2⟩ := Prod.mk.inj h
    rw [← h2, hl _ h1]
    rfl

/-- A call that came to its end by itself. -/
theorem Spec.Actions.alone {c c' : Bytes} {r : Result} (h : Actions S k (.locked (k.startPos c), c) (.leaving r, c')) :
    Alone S k c r c' := by
  have h := h.leads
  dsimp only at h
  generalize he : Phase.leaving r = ph' at h
  cases h with
  | none => cases he
  | @head _ ph₁ _ _ file₁ _ hw hl =>
    subst he
    simp only [Job.work] at hw
    generalize hp : k.prepare S (k.startPos c) c = x at hw
    obtain ⟨x, c₁⟩ := x
    cases x with
    | error e =>
      cases hw
      cases hl with
      | none => exact .failed hp
      | head hw' _ => cases hw'
    | ok s =>
      cases hw
      have := hl.rest _ _ _ rfl (prepare_data hp) rfl
      unfold Job.first at this
      split at this
      · rename_i hload
        obtain ⟨q, s₁, g1, q', s₂, g2, g3, g4⟩ := this
        subst g3 g4
        exact .done hp (.load hload g1) g2
      · rename_i hload
        obtain ⟨q, s₁, g1, q', s₂, g2, g3, g4⟩ := this
        subst g3 g4
        exact .done hp (.write (by simpa using hload) g1) g2

end Verif
