import Verif.Props.Fs

/-!
# C55, exactly
-/

namespace Ruroco

open Spec (content PowerLoss Durable Survives)

/-- Inversion for sequences that end well. -/
theorem ok_bind {α β : Type} {m : Act α} {f : α → Act β} {w w' : World} {y : β} (h : (m >>= f) w = (.ok y, w')) : ∃ x w1, m w = (.ok x, w1) ∧ f x w1 = (.ok y, w') := by
  have h : Act.bind m f w = (.ok y, w') := h
  unfold Act.bind at h
  rcases e : m w with ⟨o, w1⟩
  rw [e] at h
  cases o with
  | ok x => exact ⟨x, w1, rfl, h⟩
  | err _ => cases h
  | crash => cases h

theorem wp_of_eq {α : Type} {m : Act α} {w w' : World} {o : Out α} {Q : Out α → World → Prop} (h : m w = (o, w')) (hq : wp m w Q) : Q o w' := by
  unfold wp at hq
  rw [h] at hq
  exact hq

/-- After the directory could not be synced, the entry that was there before is still what the disk may have. -/
theorem writeAtomic_pending {path : Path} {new : List Byte} {mode : Option Nat} {w w' : World} (h : writeAtomicWithMode path new mode w = (.ok (), w'))
    (hs : .dirSyncFailed path ∈ w'.log.drop w.log.length) : w.fs path ∈ w'.pend path := by
  unfold writeAtomicWithMode at h
  obtain ⟨t, w0, h0, h⟩ := ok_bind h
  have ht : IsTmpOf path (tmpPath path t) := ⟨t, rfl⟩
  have hne := tmpPath_ne path t
  generalize tmpPath path t = tmp at h ht hne
  have p0 : Prep path tmp w w0 := by
    refine wp_of_eq (Q := fun _ w0 => Prep path tmp w w0) h0 ?_
    apply wp_nowNanos
    · intro t c _
      exact ⟨fun _ _ => rfl, fun _ _ => rfl, rfl, rfl, [], by simp, by simp [FileEvents], by simp⟩
    · intro c
      exact ⟨fun _ _ => rfl, fun _ _ => rfl, rfl, rfl, [], by simp, by simp [FileEvents], by simp⟩
  obtain ⟨_, w1, h1, h⟩ := ok_bind h
  have p1 := p0.trans (wp_of_eq h1 (prep_openTrunc ht w0)).1
  obtain ⟨_, w2, h2, h⟩ := ok_bind h
  have p2 := p1.trans (wp_of_eq h2 (prep_writeAll ht w1 new)).1
  obtain ⟨_, w3, h3, h⟩ := ok_bind h
  have p3 := p2.trans (wp_of_eq h3 (prep_fsync ht w2)).1
  have tail : ∀ w4, Prep path tmp w w4 → (rename tmp path >>= fun _ => fsyncDir path) w4 = (.ok (), w') → w.fs path ∈ w'.pend path := by
    intro w4 p4 h
    obtain ⟨_, w5, h5, h6⟩ := ok_bind h
    have e5 : w5.pend path = w.fs path :: w.pend path ∧ ∃ l, w5.log = w.log ++ l ∧ .dirSyncFailed path ∉ l := by
      obtain ⟨l, hl, _, hn⟩ := p4.log
      refine wp_of_eq (Q := fun o w5 => o = .ok () → w5.pend path = w.fs path :: w.pend path ∧ ∃ l, w5.log = w.log ++ l ∧ .dirSyncFailed path ∉ l) h5 ?_ rfl
      cases hf : w4.fs tmp with
      | none =>
        unfold rename
        rw [wp_bind, wp_peek, hf]
        exact nofun
      | some f =>
        rw [wp_rename_some _ _ _ _ hf]
        apply wp_atomicCall
        · intro o _
          refine ⟨by simp [World.setEntry, Ne.symm hne, p4.fs path (Ne.symm hne), p4.pend path (Ne.symm hne)], l ++ [.file .rename path], by simp [World.setEntry, hl], by simp [hn]⟩
        · exact fun o => nofun
        · exact fun o => nofun
        · exact fun o => nofun
    obtain ⟨e5, l, hl, hn⟩ := e5
    refine wp_of_eq (Q := fun o w' => o = .ok () → .dirSyncFailed path ∈ w'.log.drop w.log.length → w.fs path ∈ w'.pend path) h6 ?_ rfl hs
    unfold fsyncDir
    split
    · rw [wp_note]
      intro _ _
      show w.fs path ∈ w5.pend path
      rw [e5]
      exact List.mem_cons_self
    · rw [wp_bind, wp_attempt]
      apply wp_atomicCall
      · intro o _ hm
        exfalso
        have hm : Event.dirSyncFailed path ∈ (w5.log ++ [Event.file .fsyncDir path]).drop w.log.length := hm
        rw [hl, List.append_assoc, List.drop_left] at hm
        rcases List.mem_append.1 hm with hm | hm
        · exact hn hm
        · simp at hm
      · intro o
        simp only [wp_note]
        intro _ _
        rw [e5]
        exact List.mem_cons_self
      · exact fun o => nofun
      · exact fun o => nofun
  cases mode with
  | none => exact tail w3 p3 h
  | some m =>
    obtain ⟨_, w4, h4, h⟩ := ok_bind h
    have p4 := p3.trans (wp_of_eq h4 (prep_stat ht w3)).1
    obtain ⟨_, w5, h5, h⟩ := ok_bind h
    exact tail w5 (p4.trans (wp_of_eq h5 (prep_chmod ht w4 m)).1) h

/-- **C55, exactly.** A write over other content (or where there was no file) that reported success is still there after every possible power loss if and only if the best-effort fsync of the directory worked. -/
theorem C55_survives_iff (path : Path) (new : List Byte) (mode : Option Nat) (w w' : World) (hd : Durable w path) (hold : content w path ≠ some new) (h : writeAtomicWithMode path new mode w = (.ok (), w')) :
    (∀ w'', PowerLoss w' w'' → content w'' path = some new) ↔ .dirSyncFailed path ∉ w'.log.drop w.log.length := by
  refine ⟨fun hall hs => hold ?_, fun hs w'' hp => (C55_success_survives_power_loss_partial path new mode w w' w'' h hs hp).1⟩
  have hp := writeAtomic_pending h hs
  have hself : ∀ f : Option File, Survives f f := by
    intro f
    cases f with
    | none => exact .absent
    | some f =>
      cases hf : f.synced with
      | true => exact .synced f hf
      | false => exact .unsynced f f hf
  have := hall { w' with fs := fun q => if q = path then w.fs path else w'.fs q, pend := fun _ => [] } ⟨fun q => ?_, fun _ => rfl, rfl⟩
  · unfold content at this ⊢
    simpa using this
  · by_cases e : q = path
    · subst e
      refine ⟨w.fs q, List.mem_cons_of_mem _ hp, ?_⟩
      simp only [if_pos]
      exact hself _
    · refine ⟨w'.fs q, List.mem_cons_self, ?_⟩
      simp only [if_neg e]
      exact hself _

/-- Both cases occur: the directory is synced, and it is not. -/
example : (.dirSyncFailed "/d/f".toList : Event) ∉ ((writeAtomicWithMode "/d/f".toList [2] none (exampleWorld "/d/f".toList [1] [])).2.log.drop 0) ∧
    (.dirSyncFailed "/d/f".toList : Event) ∈ ((writeAtomicWithMode "/d/f".toList [2] none (exampleWorld "/d/f".toList [1] [.ok, .ok, .ok, .ok, .err 0])).2.log.drop 0) := by decide +kernel

end Ruroco
