import Verif.Lemmas.Sys
import Verif.Spec.Fs

/-!
# C41, C55: atomic file replacement
-/

namespace Ruroco

open Spec (content PowerLoss Durable Survives)

/-- **C41a.** For every path, content, previous state, clock, and every combination of failing calls and crash points: afterwards
the path shows the complete old or the complete new content; after an error the old one; after success the new one (with the
requested mode). No other path changes, except temporary files of this path. -/
theorem C41_atomic_replacement (path : Path) (new : List Byte) (mode : Option Nat) (w w' : World) (o : Out Unit)
    (h : writeAtomicWithMode path new mode w = (o, w')) :
    (content w' path = content w path ∨ content w' path = some new) ∧
      (∀ e, o = .err e → content w' path = content w path) ∧
      (o = .ok () → content w' path = some new ∧ ∀ m, mode = some m → (w'.fs path).map File.mode = some m) ∧
      (∀ q, q ≠ path → (∀ n, q ≠ tmpPath path n) → w'.fs q = w.fs q) := by
  have hs := writeAtomicWithMode_spec path new mode w
  unfold wp at hs
  rw [h] at hs
  simp only at hs
  refine ⟨?_, ?_, ?_, fun q h1 h2 => (hs.frame q h1 (fun ⟨n, hn⟩ => h2 n hn)).1⟩
  · rcases hs.result with ⟨h1, _⟩ | ⟨⟨f, h1, h2, _⟩, _⟩
    · left; simp [content, h1]
    · right; simp [content, h1, h2]
  · rintro e rfl
    rcases hs.result with ⟨h1, _⟩ | ⟨_, _, h3, _⟩
    · simp [content, h1]
    · rcases h3 with h3 | h3 <;> cases h3
  · rintro rfl
    rcases hs.result with ⟨_, _, h3⟩ | ⟨⟨f, h1, h2, _, hm⟩, _⟩
    · exact absurd rfl h3
    · refine ⟨by simp [content, h1, h2], ?_⟩
      intro m hm'
      simp [h1, hm m hm']

/-- **C41b.** The same with a power loss after the call was interrupted or returned at whatever point: if the old content was on
disk before, the path then shows the complete old or the complete new content. -/
theorem C41_atomic_under_power_loss (path : Path) (new : List Byte) (mode : Option Nat) (w w' w'' : World) (o : Out Unit)
    (hd : Durable w path) (h : writeAtomicWithMode path new mode w = (o, w')) (hp : PowerLoss w' w'') :
    content w'' path = content w path ∨ content w'' path = some new := by
  have hs := writeAtomicWithMode_spec path new mode w
  unfold wp at hs
  rw [h] at hs
  simp only at hs
  have old : ∀ g, Survives (w.fs path) g → g.map File.data = content w path := by
    intro g hg
    unfold content
    rcases hf : w.fs path with _ | f
    · rw [hf] at hg; cases hg; rfl
    · rw [hf] at hg
      cases hg with
      | synced _ => rfl
      | unsynced _ _ hu => rw [hd.2 f hf] at hu; cases hu
  obtain ⟨g, hg, hsv⟩ := hp.entries path
  rcases hs.result with ⟨h1, h2, _⟩ | ⟨⟨f, h1, h2, h3, _⟩, h4, _⟩
  · left
    rw [h1, h2, hd.1] at hg
    simp at hg; subst hg
    exact old _ hsv
  · rcases List.mem_cons.1 hg with rfl | hg
    · right
      rw [h1] at hsv
      unfold content
      cases hsv' : w''.fs path with
      | none => rw [hsv'] at hsv; cases hsv
      | some g =>
        rw [hsv'] at hsv
        cases hsv with
        | synced _ => simp [h2]
        | unsynced _ _ hu => rw [h3] at hu; cases hu
    · left
      have := h4 g hg
      rw [hd.1] at this
      simp at this; subst this
      exact old _ hsv

/-- **C55 (partial).** A write that reported success is still there after a power loss, *provided the best-effort fsync of the
directory worked* (its failure is not reported to the caller). Missing: the unconditional statement, which is false, see
`C55_success_can_be_lost`. -/
theorem C55_success_survives_power_loss_partial (path : Path) (new : List Byte) (mode : Option Nat) (w w' w'' : World)
    (h : writeAtomicWithMode path new mode w = (.ok (), w')) (hsync : .dirSyncFailed path ∉ w'.log.drop w.log.length)
    (hp : PowerLoss w' w'') : content w'' path = some new ∧ Durable w' path := by
  have hs := writeAtomicWithMode_spec path new mode w
  unfold wp at hs
  rw [h] at hs
  simp only at hs
  rcases hs.result with ⟨_, _, h3⟩ | ⟨⟨f, h1, h2, h3, _⟩, _, _, h5⟩
  · exact absurd rfl h3
  · have hpend := h5 rfl hsync
    refine ⟨?_, hpend, fun g hg => by rw [h1] at hg; cases hg; exact h3⟩
    obtain ⟨g, hg, hsv⟩ := hp.entries path
    rw [hpend] at hg
    simp at hg; subst hg
    rw [h1] at hsv
    unfold content
    cases hsv' : w''.fs path with
    | none => rw [hsv'] at hsv; cases hsv
    | some g =>
      rw [hsv'] at hsv
      cases hsv with
      | synced _ => simp [h2]
      | unsynced _ _ hu => rw [h3] at hu; cases hu

/-- A world with one durable file, used in examples. -/
def exampleWorld (p : Path) (data : List Byte) (oracle : List Choice) : World where
  fs := fun q => if q = p then some ⟨data, 0o644, true, .creator⟩ else none
  pend := fun _ => []
  clock := [some 1000, some 2000, some 3000]
  oracle := oracle
  umask := 0o022
  cur := []
  log := []

/-- **C55 is false in general**: the write reports success, yet a power loss brings the old content back (the directory fsync,
5th system call after open, write, fsync, rename, failed silently). -/
theorem C55_success_can_be_lost :
    ∃ (path : Path) (old new : List Byte) (w w' w'' : World), old ≠ new ∧ Durable w path ∧ content w path = some old ∧
      writeAtomicWithMode path new none w = (.ok (), w') ∧ PowerLoss w' w'' ∧ content w'' path = some old := by
  let path := "/d/f".toList
  let w := exampleWorld path [1] [.ok, .ok, .ok, .ok, .err 0]
  let w' := (writeAtomicWithMode path [2] none w).2
  let w'' : World := { w' with fs := fun q => if q = path then some ⟨[1], 0o644, true, .creator⟩ else w'.fs q, pend := fun _ => [] }
  refine ⟨path, [1], [2], w, w', w'', by decide, ⟨rfl, ?_⟩, rfl, rfl, ⟨?_, fun _ => rfl, rfl⟩, rfl⟩
  · intro f hf
    have : f = ⟨[1], 0o644, true, .creator⟩ := by
      simp only [w, exampleWorld, path, if_true] at hf
      exact (Option.some.inj hf).symm
    rw [this]
  · intro p
    by_cases h1 : p = path
    · subst h1
      exact ⟨some ⟨[1], 0o644, true, .creator⟩, by decide +kernel, .synced _ rfl⟩
    · refine ⟨w'.fs p, by simp, ?_⟩
      show Survives (w'.fs p) (if p = path then _ else w'.fs p)
      rw [if_neg h1]
      rcases w'.fs p with _ | f
      · exact .absent
      · cases hf : f.synced
        · exact .unsynced _ _ hf
        · exact .synced _ hf

/-- Non-vacuity: a write interrupted half-way through its data leaves the old content; one interrupted in the rename leaves the
new content. -/
example : content (writeAtomic "/d/f".toList [5, 6] (exampleWorld "/d/f".toList [1] [.ok, .crash 1])).2 "/d/f".toList = some [1] ∧
    content (writeAtomic "/d/f".toList [5, 6] (exampleWorld "/d/f".toList [1] [.ok, .ok, .ok, .crash 1])).2 "/d/f".toList = some [5, 6] := by
  decide +kernel

end Ruroco
