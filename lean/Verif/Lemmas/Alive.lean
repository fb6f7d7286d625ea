import Verif.Lemmas.SysOk
import Verif.Model.Server
import Verif.Spec.Terms.Alive

/-! An action dies only if the oracle says so. -/

namespace Ruroco

/-- `m` does not die of its own accord. -/
def Alive (m : Act α) : Prop := ∀ w, NoCrash w.oracle → (m w).1 ≠ .crash ∧ NoCrash (m w).2.oracle

namespace Alive

theorem pure (a : α) : Alive (Pure.pure a : Act α) := fun _ h => ⟨by simp [Pure.pure, Act.pure], h⟩

theorem throw (e : Err) : Alive (Act.throw e : Act α) := fun _ h => ⟨by simp [Act.throw], h⟩

theorem bind {m : Act α} {f : α → Act β} (hm : Alive m) (hf : ∀ a, Alive (f a)) : Alive (m >>= f) := by
  intro w hw
  show (Act.bind m f w).1 ≠ _ ∧ NoCrash (Act.bind m f w).2.oracle
  unfold Act.bind
  have h1 := hm w hw
  rcases h : m w with ⟨o, w'⟩
  rw [h] at h1
  cases o with
  | ok a => exact hf a w' h1.2
  | err e => exact ⟨by simp, h1.2⟩
  | crash => exact absurd rfl h1.1

theorem attempt {m : Act α} (hm : Alive m) : Alive m.attempt := by
  intro w hw
  unfold Act.attempt
  have h1 := hm w hw
  rcases h : m w with ⟨o, w'⟩
  rw [h] at h1
  cases o with
  | ok a => exact ⟨by simp, h1.2⟩
  | err e => exact ⟨by simp, h1.2⟩
  | crash => exact absurd rfl h1.1

theorem ofExcept (x : Except Err α) : Alive (Act.ofExcept x) := by
  cases x with
  | ok a => exact pure a
  | error e => exact throw e

theorem syscall {ev : Event} {eff : World → World} {onErr onCrash : Nat → World → World} (h : ∀ w, (eff w).oracle = w.oracle)
    (he : ∀ k w, (onErr k w).oracle = w.oracle) : Alive (Ruroco.syscall ev eff onErr onCrash) := by
  intro w hw
  unfold Ruroco.syscall
  simp only
  have htail : ∀ {c o}, w.oracle = c :: o → NoCrash o := fun h c hc => hw c (by rw [h]; simp [hc])
  rcases ho : w.oracle with _ | ⟨c, o⟩
  · exact ⟨by simp, by rw [h]; simp [NoCrash]⟩
  · cases c with
    | ok => exact ⟨by simp, by rw [h]; exact htail ho⟩
    | err k => exact ⟨by simp, by rw [he]; exact htail ho⟩
    | crash k => exact absurd rfl (hw (.crash k) (by rw [ho]; simp) k)

theorem atomicCall {ev : Event} {eff : World → World} (h : ∀ w, (eff w).oracle = w.oracle) : Alive (Ruroco.atomicCall ev eff) :=
  syscall h (fun _ _ => rfl)

theorem nowNanos : Alive Ruroco.nowNanos := by
  intro w hw
  unfold Ruroco.nowNanos
  rcases h : w.clock with _ | ⟨t, c⟩
  · exact ⟨by simp, hw⟩
  · cases t <;> exact ⟨by simp, hw⟩

theorem peek (p : Path) : Alive (Ruroco.peek p) := fun _ h => ⟨by simp [Ruroco.peek], h⟩

theorem note (e : Event) : Alive (Ruroco.note e) := fun _ h => ⟨by simp [Ruroco.note], h⟩

theorem openTrunc (p : Path) : Alive (Ruroco.openTrunc p) := atomicCall (fun _ => rfl)

theorem writeAll (p : Path) (bs : List Byte) : Alive (Ruroco.writeAll p bs) :=
  syscall (fun w => (append_oracle w p bs).1) (fun k w => (append_oracle w p (bs.take k)).1)

theorem fsync (p : Path) : Alive (Ruroco.fsync p) := by
  apply atomicCall
  intro w
  cases w.fs p <;> rfl

theorem chmod (p : Path) (m : Nat) : Alive (Ruroco.chmod p m) := by
  apply bind (peek p)
  intro f
  cases f with
  | none => exact throw _
  | some f => exact atomicCall (fun _ => rfl)

theorem stat (p : Path) : Alive (Ruroco.stat p) := by
  apply bind (atomicCall (fun _ => rfl))
  intro _
  apply bind (peek p)
  intro f
  cases f with
  | none => exact throw _
  | some f => exact pure _

theorem rename (a b : Path) : Alive (Ruroco.rename a b) := by
  apply bind (peek a)
  intro f
  cases f with
  | none => exact throw _
  | some f => exact atomicCall (fun _ => rfl)

theorem fsyncDir (p : Path) : Alive (Ruroco.fsyncDir p) := by
  unfold Ruroco.fsyncDir
  split
  · exact note _
  · refine bind (attempt (atomicCall ?_)) ?_
    · intro w; rfl
    · intro r
      cases r with
      | ok _ => exact pure _
      | error _ => exact note _

theorem writeAtomicWithMode (p : Path) (bs : List Byte) (mode : Option Nat) : Alive (Ruroco.writeAtomicWithMode p bs mode) := by
  apply bind nowNanos
  intro n
  apply bind (openTrunc _)
  intro _
  apply bind (writeAll _ _)
  intro _
  apply bind (fsync _)
  intro _
  have tail : Alive (do Ruroco.rename (tmpPath p n) p; Ruroco.fsyncDir p) := bind (rename _ _) (fun _ => fsyncDir _)
  cases mode with
  | none => exact tail
  | some m => exact bind (stat _) (fun _ => bind (chmod _ _) (fun _ => tail))

theorem save (b : Blocklist) : Alive b.save := bind (ofExcept _) (fun _ => writeAtomicWithMode _ _ _)

theorem sendCommand (c : U128) (d : CommanderData) : Alive (Ruroco.sendCommand c d) := by
  refine bind (attempt ?_) (fun _ => pure _)
  unfold writeToSocket
  refine bind (atomicCall (fun _ => rfl)) (fun _ => bind (atomicCall (fun _ => rfl)) (fun _ => ?_))
  intro w hw
  have htail : ∀ {c o}, w.oracle = c :: o → NoCrash o := fun h c hc => hw c (by rw [h]; simp [hc])
  rcases ho : w.oracle with _ | ⟨c, o⟩
  · simp [ho, NoCrash]
  · cases c with
    | ok => simp only [ho]; exact ⟨by simp, htail ho⟩
    | err k => simp only [ho]; exact ⟨by simp, htail ho⟩
    | crash k => exact absurd rfl (hw (.crash k) (by rw [ho]; simp) k)

theorem updateBlockList (s : Server) (k : List Byte) (c : U128) : Alive (s.updateBlockList k c) := by
  unfold Server.updateBlockList
  apply bind (attempt (save _))
  intro r
  cases r with
  | ok _ => exact pure _
  | error _ => exact pure _

theorem validateAndSend (s : Server) (k pt : List Byte) (src : Ip) : Alive (s.validateAndSend k pt src) := by
  unfold Server.validateAndSend
  apply bind (attempt nowNanos)
  intro r
  cases r with
  | error e => exact pure _
  | ok now =>
    simp only
    cases ClientData.deserialize pt with
    | error e => exact pure _
    | ok d =>
      simp only
      repeat' split
      all_goals first
        | exact pure _
        | skip
      apply bind (updateBlockList _ _ _)
      rintro ⟨s', r⟩
      cases r with
      | error e => exact pure _
      | ok u => exact bind (sendCommand _ _) (fun _ => pure _)

theorem iteration (A : Aead) (s : Server) (dg : List Byte) (src : Ip) (rd : Readings) : Alive (s.iteration A dg src rd) := by
  unfold Server.iteration
  simp only
  split
  · exact pure _
  · split
    · exact pure _
    · split
      · exact pure _
      · exact validateAndSend _ _ _ _

theorem handleDatagram (A : Aead) (s : Server) (dg : List Byte) (src : Ip) (rd : Readings) (t : Nat) : Alive (s.handleDatagram A dg src rd t) := by
  unfold Server.handleDatagram
  apply bind (iteration A s dg src rd)
  rintro ⟨s', r⟩
  cases r with
  | error e => exact pure _
  | ok u => exact pure _

end Alive

end Ruroco
