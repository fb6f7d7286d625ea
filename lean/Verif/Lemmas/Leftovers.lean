import Verif.Lemmas.Sys
import Verif.Spec.Leftovers

/-! Every file an action leaves behind is accounted for by a failing system call. -/

namespace Ruroco

open Spec

theorem Spec.Leaves.refl (P : Path → Prop) (w : World) : Leaves P w w [] := fun _ h => .inl h

theorem Spec.Leaves.of_fs {P : Path → Prop} {w w' : World} (h : w'.fs = w.fs) : Leaves P w w' [] := fun q hq => .inl (by rw [← h]; exact hq)

theorem Spec.Leaves.trans {P : Path → Prop} {w w1 w2 : World} {a b : List Path} (h : Leaves P w w1 a) (h' : Leaves P w1 w2 b) : Leaves P w w2 (a ++ b) := by
  intro q hf
  rcases h' q hf with h1 | h1 | h1
  · rcases h q h1 with h2 | h2 | h2
    · exact .inl h2
    · exact .inr (.inl h2)
    · exact .inr (.inr (by simp [h2]))
  · exact .inr (.inl h1)
  · exact .inr (.inr (by simp [h1]))

/-- The files left behind number at most the failures used up. -/
def TidyFrom (P : Path → Prop) (w : World) (w' : World) : Prop :=
  ∃ left : List Path, Leaves P w w' left ∧ left.length + failures w'.oracle ≤ failures w.oracle

/-- `m` leaves behind at most one file per failing call, apart from the permanent files `P`. -/
def Tidy (P : Path → Prop) (m : Act α) : Prop := ∀ w, wp m w (fun _ w' => TidyFrom P w w')

theorem TidyFrom.of_fs {P : Path → Prop} {w w' : World} (h : w'.fs = w.fs) (ho : failures w'.oracle ≤ failures w.oracle) : TidyFrom P w w' :=
  ⟨[], .of_fs h, by simpa using ho⟩

theorem TidyFrom.trans {P : Path → Prop} {w w1 w2 : World} (h : TidyFrom P w w1) (h' : TidyFrom P w1 w2) : TidyFrom P w w2 := by
  obtain ⟨a, a1, a2⟩ := h
  obtain ⟨b, b1, b2⟩ := h'
  exact ⟨a ++ b, a1.trans b1, by rw [List.length_append]; omega⟩

theorem failures_cons_ok (o : List Choice) : failures (.ok :: o) = failures o := by simp [failures]

theorem failures_cons_err (k : Nat) (o : List Choice) : failures (.err k :: o) = failures o + 1 := by
  have : (Choice.err k != .ok) = true := by simp
  simp [failures, this]

theorem failures_cons_crash (k : Nat) (o : List Choice) : failures (.crash k :: o) = failures o + 1 := by
  have : (Choice.crash k != .ok) = true := by simp
  simp [failures, this]

theorem wp_syscall_failures (ev : Event) (eff : World → World) (e c : Nat → World → World) (w : World) (Q : Out Unit → World → Prop)
    (hok : ∀ o, failures o = failures w.oracle → Q (.ok ()) (eff { w with log := w.log ++ [ev], oracle := o }))
    (herr : ∀ k o, failures o + 1 = failures w.oracle → Q (.err .io) (e k { w with log := w.log ++ [ev], oracle := o }))
    (hc : ∀ k o, failures o + 1 = failures w.oracle → Q .crash (c k { w with log := w.log ++ [ev], oracle := o })) :
    wp (syscall ev eff e c) w Q := by
  unfold wp syscall
  rcases h : w.oracle with _ | ⟨x, o⟩
  · exact hok [] (by rw [h])
  · cases x with
    | ok => exact hok o (by rw [h, failures_cons_ok])
    | err k => exact herr k o (by rw [h, failures_cons_err])
    | crash k => exact hc k o (by rw [h, failures_cons_crash])

theorem wp_atomicCall_failures (ev : Event) (eff : World → World) (w : World) (Q : Out Unit → World → Prop)
    (hok : ∀ o, failures o = failures w.oracle → Q (.ok ()) (eff { w with log := w.log ++ [ev], oracle := o }))
    (herr : ∀ o, failures o + 1 = failures w.oracle → Q (.err .io) { w with log := w.log ++ [ev], oracle := o })
    (hc0 : ∀ o, failures o + 1 = failures w.oracle → Q .crash { w with log := w.log ++ [ev], oracle := o })
    (hc1 : ∀ o, failures o + 1 = failures w.oracle → Q .crash (eff { w with log := w.log ++ [ev], oracle := o })) :
    wp (atomicCall ev eff) w Q := by
  unfold atomicCall
  apply wp_syscall_failures
  · exact hok
  · intro _; exact herr
  · intro k o h
    by_cases hk : k = 0
    · simp only [hk, if_true]; exact hc0 o h
    · simp only [hk, if_false]; exact hc1 o h

namespace Tidy

variable {P : Path → Prop}

theorem pure (a : α) : Tidy P (pure a : Act α) := fun _ => .of_fs rfl (Nat.le_refl _)

theorem throw (e : Err) : Tidy P (Act.throw e : Act α) := fun _ => .of_fs rfl (Nat.le_refl _)

theorem peek (q : Path) : Tidy P (Ruroco.peek q) := fun _ => .of_fs rfl (Nat.le_refl _)

theorem note (ev : Event) : Tidy P (Ruroco.note ev) := fun _ => .of_fs rfl (Nat.le_refl _)

theorem bind {m : Act α} {f : α → Act β} (hm : Tidy P m) (hf : ∀ a, Tidy P (f a)) : Tidy P (m >>= f) := by
  intro w
  rw [wp_bind]
  refine wp_mono (hm w) ?_
  intro o w1 h1
  cases o with
  | ok a => exact wp_mono (hf a w1) (fun _ w2 h2 => h1.trans h2)
  | err e => exact h1
  | crash => exact h1

theorem attempt {m : Act α} (hm : Tidy P m) : Tidy P m.attempt := by
  intro w
  rw [wp_attempt]
  refine wp_mono (hm w) ?_
  intro o w1 h
  cases o <;> exact h

theorem ofExcept (x : Except Err α) : Tidy P (Act.ofExcept x) := by
  cases x with
  | ok a => exact pure a
  | error e => exact throw e

theorem nowNanos : Tidy P Ruroco.nowNanos := by
  intro w
  apply wp_nowNanos
  · intro t c _; exact .of_fs rfl (Nat.le_refl _)
  · intro c; exact .of_fs rfl (Nat.le_refl _)

/-- A call that creates permanent files at most. -/
theorem call {ev : Event} {eff : World → World} (h1 : ∀ w, (eff w).oracle = w.oracle) (h2 : ∀ w, Leaves P w (eff w) []) : Tidy P (atomicCall ev eff) := by
  intro w
  apply wp_atomicCall_failures
  · intro o ho
    exact ⟨[], fun q hf => h2 { w with log := w.log ++ [ev], oracle := o } q hf, by rw [h1]; simp [ho]⟩
  · intro o ho
    exact .of_fs rfl (by show failures o ≤ _; omega)
  · intro o ho
    exact .of_fs rfl (by show failures o ≤ _; omega)
  · intro o ho
    exact ⟨[], fun q hf => h2 { w with log := w.log ++ [ev], oracle := o } q hf, by rw [h1]; show 0 + failures o ≤ _; omega⟩

theorem look {ev : Event} : Tidy P (atomicCall ev id) := call (fun _ => rfl) (fun w => .refl P w)

theorem pathExists (q : Path) : Tidy P (Ruroco.pathExists q) := by
  refine bind (attempt look) ?_
  intro r
  cases r with
  | ok _ => exact bind (peek q) (fun _ => pure _)
  | error _ => exact bind (note _) (fun _ => pure _)

theorem readFile (q : Path) : Tidy P (Ruroco.readFile q) := by
  refine bind look ?_
  intro _
  refine bind (peek q) ?_
  intro f
  cases f with
  | none => exact throw _
  | some f => exact pure _

theorem fsyncDir (q : Path) : Tidy P (Ruroco.fsyncDir q) := by
  unfold Ruroco.fsyncDir
  split
  · exact note _
  · refine bind (attempt (call (fun _ => rfl) (fun w => .of_fs rfl))) ?_
    intro r
    cases r with
    | ok _ => exact pure _
    | error _ => exact note _

/-! ## `write_atomic` -/

/-- Between opening and renaming the temporary file. -/
private def Mid (P : Path → Prop) (tmp : Path) (w0 w : World) : Prop :=
  Leaves P w0 w [tmp] ∧ failures w.oracle ≤ failures w0.oracle ∧ w.fs tmp ≠ none

/-- After a step that keeps the temporary file or fails. -/
private def Left (P : Path → Prop) (tmp : Path) (w0 : World) (o : Out α) (w : World) : Prop :=
  Leaves P w0 w [tmp] ∧ ((∃ a, o = .ok a) ∧ failures w.oracle ≤ failures w0.oracle ∧ w.fs tmp ≠ none ∨ (∀ a, o ≠ .ok a) ∧ failures w.oracle + 1 ≤ failures w0.oracle)

private theorem leaves_set {tmp : Path} {w0 w w' : World} (h : Leaves P w0 w [tmp]) (hs : ∀ q, q ≠ tmp → w'.fs q = w.fs q) : Leaves P w0 w' [tmp] := by
  intro q hf
  by_cases h1 : q = tmp
  · exact .inr (.inr (by simp [h1]))
  · exact h q (by rw [← hs q h1]; exact hf)

private theorem append_fs (w : World) (p : Path) (bs : List Byte) :
    (∀ q, q ≠ p → (w.append p bs).fs q = w.fs q) ∧ (w.fs p ≠ none → (w.append p bs).fs p ≠ none) ∧ (w.append p bs).oracle = w.oracle := by
  unfold World.append
  split
  · exact ⟨fun q hq => by simp [World.setFile, hq], fun _ => by simp [World.setFile], rfl⟩
  · exact ⟨fun _ _ => rfl, fun h => h, rfl⟩

private theorem left_openTrunc {tmp : Path} {w0 : World} : wp (openTrunc tmp) w0 (Left P tmp w0) := by
  have h0 : Leaves P w0 w0 [tmp] := fun q hf => .inl hf
  apply wp_atomicCall_failures
  · intro o ho
    exact ⟨leaves_set h0 (fun q hq => by simp [World.setEntry, hq]), .inl ⟨⟨(), rfl⟩, Nat.le_of_eq ho, by simp [World.setEntry]⟩⟩
  · intro o ho
    exact ⟨leaves_set h0 (fun q hq => rfl), .inr ⟨nofun, Nat.le_of_eq ho⟩⟩
  · intro o ho
    exact ⟨leaves_set h0 (fun q hq => rfl), .inr ⟨nofun, Nat.le_of_eq ho⟩⟩
  · intro o ho
    exact ⟨leaves_set h0 (fun q hq => by simp [World.setEntry, hq]), .inr ⟨nofun, Nat.le_of_eq ho⟩⟩

private theorem left_writeAll {tmp : Path} {w0 : World} (bs : List Byte) (w : World) (h : Mid P tmp w0 w) : wp (writeAll tmp bs) w (Left P tmp w0) := by
  obtain ⟨h0, h1, h2⟩ := h
  apply wp_syscall_failures
  · intro o ho
    obtain ⟨a, b, c⟩ := append_fs { w with log := w.log ++ [.file .write tmp], oracle := o } tmp bs
    exact ⟨leaves_set h0 a, .inl ⟨⟨(), rfl⟩, by rw [c]; simp only; omega, b h2⟩⟩
  · intro k o ho
    obtain ⟨a, b, c⟩ := append_fs { w with log := w.log ++ [.file .write tmp], oracle := o } tmp (bs.take k)
    exact ⟨leaves_set h0 a, .inr ⟨nofun, by rw [c]; simp only; omega⟩⟩
  · intro k o ho
    obtain ⟨a, b, c⟩ := append_fs { w with log := w.log ++ [.file .write tmp], oracle := o } tmp (bs.take k)
    exact ⟨leaves_set h0 a, .inr ⟨nofun, by rw [c]; simp only; omega⟩⟩

/-- A call that touches only the temporary file, and keeps it. -/
private theorem left_call {tmp : Path} {w0 : World} (ev : Event) (eff : World → World) (h1 : ∀ w, (eff w).oracle = w.oracle)
    (h2 : ∀ w q, q ≠ tmp → (eff w).fs q = w.fs q) (h3 : ∀ w, w.fs tmp ≠ none → (eff w).fs tmp ≠ none) (w : World) (h : Mid P tmp w0 w) :
    wp (atomicCall ev eff) w (Left P tmp w0) := by
  obtain ⟨a, b, c⟩ := h
  apply wp_atomicCall_failures
  · intro o ho
    exact ⟨leaves_set a (h2 _), .inl ⟨⟨(), rfl⟩, by rw [h1]; simp only; omega, h3 _ c⟩⟩
  · intro o ho
    exact ⟨leaves_set a (fun _ _ => rfl), .inr ⟨nofun, by simp only; omega⟩⟩
  · intro o ho
    exact ⟨leaves_set a (fun _ _ => rfl), .inr ⟨nofun, by simp only; omega⟩⟩
  · intro o ho
    exact ⟨leaves_set a (h2 _), .inr ⟨nofun, by rw [h1]; simp only; omega⟩⟩

private theorem left_fsync {tmp : Path} {w0 : World} (w : World) (h : Mid P tmp w0 w) : wp (fsync tmp) w (Left P tmp w0) := by
  apply left_call _ _ _ _ _ w h
  · intro w; split <;> rfl
  · intro w q hq
    split
    · simp [World.setFile, hq]
    · rfl
  · intro w hw
    split
    · simp [World.setFile]
    · exact hw

private theorem left_bind {tmp : Path} {w0 : World} {m : Act α} {f : α → Act β} {w : World} (hm : wp m w (Left P tmp w0))
    (hf : ∀ a w1, Mid P tmp w0 w1 → wp (f a) w1 (fun _ w' => TidyFrom P w0 w')) : wp (m >>= f) w (fun _ w' => TidyFrom P w0 w') := by
  rw [wp_bind]
  refine wp_mono hm ?_
  rintro o w1 ⟨h1, h2⟩
  cases o with
  | ok a =>
    rcases h2 with ⟨_, h, h'⟩ | ⟨h, _⟩
    · exact hf a w1 ⟨h1, h, h'⟩
    · exact absurd rfl (h a)
  | err e =>
    rcases h2 with ⟨⟨_, h⟩, _⟩ | ⟨_, h⟩
    · cases h
    · exact ⟨_, h1, by simp only [List.length_singleton]; omega⟩
  | crash =>
    rcases h2 with ⟨⟨_, h⟩, _⟩ | ⟨_, h⟩
    · cases h
    · exact ⟨_, h1, by simp only [List.length_singleton]; omega⟩

private theorem left_stat {tmp : Path} {w0 : World} (w : World) (h : Mid P tmp w0 w) : wp (stat tmp) w (Left P tmp w0) := by
  unfold stat
  rw [wp_bind]
  refine wp_mono (left_call _ _ (fun _ => rfl) (fun _ _ _ => rfl) (fun _ h => h) w h) ?_
  rintro o w1 ⟨h1, h2⟩
  cases o with
  | ok a =>
    rcases h2 with ⟨_, h, h'⟩ | ⟨h, _⟩
    · simp only
      rw [wp_bind, wp_peek]
      simp only
      cases hf : w1.fs tmp with
      | none => exact absurd hf h'
      | some f => exact ⟨h1, .inl ⟨⟨f, rfl⟩, h, h'⟩⟩
    · exact absurd rfl (h a)
  | err e =>
    rcases h2 with ⟨⟨_, h⟩, _⟩ | ⟨_, h⟩
    · cases h
    · exact ⟨h1, .inr ⟨nofun, h⟩⟩
  | crash =>
    rcases h2 with ⟨⟨_, h⟩, _⟩ | ⟨_, h⟩
    · cases h
    · exact ⟨h1, .inr ⟨nofun, h⟩⟩

private theorem left_chmod {tmp : Path} {w0 : World} (m : Nat) (w : World) (h : Mid P tmp w0 w) : wp (chmod tmp m) w (Left P tmp w0) := by
  unfold chmod
  rw [wp_bind, wp_peek]
  simp only
  cases hf : w.fs tmp with
  | none => exact absurd hf h.2.2
  | some f => exact left_call _ (fun w => w.setFile tmp (some { f with mode := m })) (fun _ => rfl) (fun _ q hq => by simp [World.setFile, hq]) (fun _ _ => by simp [World.setFile]) w h

private theorem mid_end {p tmp : Path} (hp : P p) {w0 : World} (w : World) (h : Mid P tmp w0 w) :
    wp (rename tmp p >>= fun _ => Ruroco.fsyncDir p) w (fun _ w' => TidyFrom P w0 w') := by
  obtain ⟨a, b, c⟩ := h
  have hren : wp (rename tmp p) w (fun _ w' => TidyFrom P w0 w') := by
    unfold rename
    rw [wp_bind, wp_peek]
    simp only
    cases hf : w.fs tmp with
    | none => exact absurd hf c
    | some f =>
      have done : ∀ o, Leaves P w0 ((World.setEntry { w with log := w.log ++ [.file .rename p], oracle := o } p (some f)).setEntry tmp none) [] := by
        intro o q hx
        by_cases hq : q = p
        · exact .inr (.inl (hq ▸ hp))
        by_cases h1 : q = tmp
        · simp [World.setEntry, h1] at hx
        · simp only [World.setEntry, h1, hq, if_false] at hx
          rcases a q hx with h2 | h2 | h2
          · exact .inl h2
          · exact .inr (.inl h2)
          · simp [h1] at h2
      apply wp_atomicCall_failures
      · intro o ho
        exact ⟨[], done o, by show 0 + failures o ≤ _; omega⟩
      · intro o ho
        exact ⟨[tmp], leaves_set a (fun _ _ => rfl), by simp only [List.length_singleton]; omega⟩
      · intro o ho
        exact ⟨[tmp], leaves_set a (fun _ _ => rfl), by simp only [List.length_singleton]; omega⟩
      · intro o ho
        exact ⟨[], done o, by show 0 + failures o ≤ _; omega⟩
  rw [wp_bind]
  refine wp_mono hren ?_
  intro o w1 h1
  cases o with
  | ok a => exact wp_mono (fsyncDir p w1) (fun _ _ h2 => h1.trans h2)
  | err e => exact h1
  | crash => exact h1

theorem writeAtomicWithMode {p : Path} (hp : P p) (bs : List Byte) (mode : Option Nat) : Tidy P (Ruroco.writeAtomicWithMode p bs mode) := by
  refine bind nowNanos ?_
  intro n w
  refine left_bind left_openTrunc (fun _ w1 h1 => left_bind (left_writeAll bs w1 h1) (fun _ w2 h2 => left_bind (left_fsync w2 h2) (fun _ w3 h3 => ?_)))
  cases mode with
  | none => exact mid_end hp w3 h3
  | some m => exact left_bind (left_stat w3 h3) (fun _ w4 h4 => left_bind (left_chmod m w4 h4) (fun _ w5 h5 => mid_end hp w5 h5))

theorem openCreate {p : Path} (hp : P p) : Tidy P (Ruroco.openCreate p) := by
  apply call
  · intro w
    cases w.fs p <;> rfl
  · intro w q hq
    by_cases h : q = p
    · exact .inr (.inl (h ▸ hp))
    · cases hf : w.fs p with
      | none => simp only [hf, World.setEntry, h, if_false] at hq; exact .inl hq
      | some f => simp only [hf] at hq; exact .inl hq

theorem acquireLock {p : Path} (hp : P p) (held : Bool) : Tidy P (Ruroco.acquireLock p held) := by
  refine bind (openCreate hp) (fun _ => bind look (fun _ => ?_))
  split
  · exact throw _
  · exact pure _

/-! ## The server -/

theorem save {b : Blocklist} (hp : P b.path) : Tidy P b.save := bind (ofExcept _) (fun _ => writeAtomicWithMode hp _ _)

theorem create_bl {dir : Path} (hp : P (blocklistPath dir)) (order : BlMap → BlMap) : Tidy P (Blocklist.create dir order) := by
  have done : ∀ map, Tidy P (({ map, path := blocklistPath dir, order : Blocklist }.save >>= fun _ =>
      Pure.pure { map, path := blocklistPath dir, order : Blocklist }) : Act Blocklist) := fun map => bind (save hp) (fun _ => pure _)
  unfold Blocklist.create
  refine bind (pathExists _) (fun b => ?_)
  cases b with
  | false => exact done []
  | true =>
    refine bind (readFile _) (fun bytes => ?_)
    cases decodeBl bytes with
    | none => exact throw _
    | some m => exact done m

theorem sendCommand (c : U128) (d : CommanderData) : Tidy P (Ruroco.sendCommand c d) := by
  refine bind (attempt ?_) (fun _ => pure _)
  unfold writeToSocket
  refine bind look (fun _ => bind look (fun _ => ?_))
  intro w
  unfold wp
  simp only
  rcases ho : w.oracle with _ | ⟨c, o⟩
  · exact .of_fs rfl (by simp [ho])
  · cases c with
    | ok => exact .of_fs rfl (by simp only [ho, failures_cons_ok]; exact Nat.le_refl _)
    | err k => exact .of_fs rfl (by simp only [ho, failures_cons_err]; omega)
    | crash k => exact .of_fs rfl (by simp only [ho, failures_cons_crash]; omega)

theorem updateBlockList {s : Server} (hp : P s.bl.path) (k : List Byte) (c : U128) : Tidy P (s.updateBlockList k c) := by
  unfold Server.updateBlockList
  refine bind (attempt (save hp)) ?_
  intro r
  cases r with
  | ok _ => exact pure _
  | error _ => exact pure _

theorem validateAndSend {s : Server} (hp : P s.bl.path) (k pt : List Byte) (src : Ip) : Tidy P (s.validateAndSend k pt src) := by
  unfold Server.validateAndSend
  refine bind (attempt nowNanos) ?_
  intro r
  cases r with
  | error e => exact pure _
  | ok now =>
    simp only
    cases ClientData.deserialize pt with
    | error e => exact pure _
    | ok d =>
      simp only
      repeat' split
      all_goals first
        | exact pure _
        | skip
      refine bind (updateBlockList hp _ _) ?_
      rintro ⟨s', r⟩
      cases r with
      | error e => exact pure _
      | ok u => exact bind (sendCommand _ _) (fun _ => pure _)

theorem iteration (A : Aead) {s : Server} (hp : P s.bl.path) (dg : List Byte) (src : Ip) (rd : Readings) : Tidy P (s.iteration A dg src rd) := by
  unfold Server.iteration
  simp only
  split
  · exact pure _
  · split
    · exact pure _
    · split
      · exact pure _
      · exact validateAndSend (s := { s with rl := (s.rl.check (normalizeIp src) s.cfg.maxPerIp s.cfg.maxGlobal rd).2 }) hp _ _ _

theorem handleDatagram (A : Aead) {s : Server} (hp : P s.bl.path) (dg : List Byte) (src : Ip) (rd : Readings) (t : Nat) : Tidy P (s.handleDatagram A dg src rd t) := by
  unfold Server.handleDatagram
  refine bind (iteration A hp dg src rd) ?_
  rintro ⟨s', r⟩
  cases r with
  | error e => exact pure _
  | ok u => exact pure _

/-- The file of the replay state does not change by seeding. -/
private theorem seeded_path (hs : Handlers) (floor : U128) (b : Blocklist) :
    (hs.foldl (fun b h => b.seedIfAbsent h.1 floor) b).path = b.path := by
  induction hs generalizing b with
  | nil => rfl
  | cons h rest ih => rw [List.foldl_cons, ih]; unfold Blocklist.seedIfAbsent; split <;> rfl

/-- What an action returns has the property, too. -/
private theorem bindR {m : Act α} {f : α → Act β} {R : α → Prop} (hm : Tidy P m) (hr : ∀ w a w', m w = (.ok a, w') → R a) (hf : ∀ a, R a → Tidy P (f a)) :
    Tidy P (m >>= f) := by
  intro w
  rw [wp_bind]
  have h1 := hm w
  unfold wp at h1 ⊢
  rcases h : m w with ⟨o, w1⟩
  rw [h] at h1
  cases o with
  | ok a => exact wp_mono (hf a (hr w a w1 h) w1) (fun _ w2 h2 => h1.trans h2)
  | err e => exact h1
  | crash => exact h1

private theorem create_bl_path (dir : Path) (order : BlMap → BlMap) (w : World) :
    wp (Blocklist.create dir order) w (fun o _ => ∀ b, o = .ok b → b.path = blocklistPath dir) := by
  have done : ∀ map w, wp (({ map, path := blocklistPath dir, order : Blocklist }.save >>= fun _ =>
      Pure.pure { map, path := blocklistPath dir, order : Blocklist }) : Act Blocklist) w (fun o _ => ∀ b, o = .ok b → b.path = blocklistPath dir) := by
    intro map w
    rw [wp_bind]
    refine wp_mono (Q := fun _ _ => True) trivial ?_
    intro o w' _
    cases o with
    | ok a => intro b hb; cases hb; rfl
    | err e => intro b hb; cases hb
    | crash => intro b hb; cases hb
  unfold Blocklist.create
  rw [wp_bind]
  refine wp_mono (Q := fun _ _ => True) trivial ?_
  intro o w1 _
  cases o with
  | err e => intro b hb; cases hb
  | crash => intro b hb; cases hb
  | ok x =>
    cases x with
    | false => exact done [] w1
    | true =>
      simp only [if_true]
      rw [wp_bind]
      refine wp_mono (Q := fun _ _ => True) trivial ?_
      intro o w2 _
      cases o with
      | err e => intro b hb; cases hb
      | crash => intro b hb; cases hb
      | ok bytes =>
        simp only
        cases decodeBl bytes with
        | none => intro b hb; cases hb
        | some m => exact done m w2

theorem create (cfg : ServerCfg) (env : StartEnv) (hp : P (blocklistPath cfg.blDir)) : Tidy P (Server.create cfg env) := by
  unfold Server.create
  refine bind (ofExcept _) (fun hs => ?_)
  refine bindR (R := fun b => b.path = blocklistPath cfg.blDir) (create_bl hp _) ?_ (fun b hb => ?_)
  · intro w a w' h
    have := create_bl_path cfg.blDir env.order w
    unfold wp at this
    rw [h] at this
    exact this a rfl
  · refine bind nowNanos (fun floor => bind (save ?_) (fun _ => ?_))
    · rw [seeded_path, hb]; exact hp
    · split
      · exact pure _
      · exact throw _

/-! ## The client -/

private theorem returns_bind {m : Act α} {f : α → Act β} {R : β → Prop} (h : ∀ a w b w', f a w = (.ok b, w') → R b) (w : World) (b : β) (w' : World)
    (hb : (m >>= f) w = (.ok b, w')) : R b := by
  have hb : Act.bind m f w = (.ok b, w') := hb
  unfold Act.bind at hb
  rcases hm : m w with ⟨o, w1⟩
  rw [hm] at hb
  cases o with
  | ok a => exact h a w1 b w' hb
  | err e => cases hb
  | crash => cases hb

private theorem returns_pure {a : α} {R : α → Prop} (h : R a) (w : World) (b : α) (w' : World) (hb : (Pure.pure a : Act α) w = (.ok b, w')) : R b := by
  cases hb; exact h

private theorem returns_throw {e : Err} {R : α → Prop} (w : World) (b : α) (w' : World) (hb : (Act.throw e : Act α) w = (.ok b, w')) : R b := by
  cases hb

theorem write {c : Counter} (hp : P c.path) : Tidy P c.write := writeAtomicWithMode hp _ _

theorem inc {c : Counter} (hp : P c.path) : Tidy P c.inc := by
  unfold Counter.inc
  split
  · exact bind (attempt (write hp)) (fun _ => pure _)
  · exact pure _

private theorem inc_path (c : Counter) : ∀ w r w', c.inc w = (.ok r, w') → r.1.path = c.path := by
  unfold Counter.inc
  split
  · exact returns_bind (fun a w b w' h => by cases h; rfl)
  · exact returns_pure rfl

theorem sendUdp (a : SockAddr) (c : U128) (bs : List Byte) : Tidy P (Ruroco.sendUdp a c bs) := bind look (fun _ => bind look (fun _ => look))

theorem sendData (A : Aead) (hash : List Char → U64) {s : Sender} (hp : P s.counter.path) (a : SockAddr) (rnd : Option (List Byte)) :
    Tidy P (s.sendData A hash a rnd) := by
  unfold Sender.sendData
  refine bind (note _) (fun _ => bind (inc hp) ?_)
  rintro ⟨c, r⟩
  cases r with
  | error e => exact pure _
  | ok u =>
    simp only
    split
    · exact pure _
    · exact bind (attempt (sendUdp _ _ _)) (fun _ => pure _)

private theorem sendData_path (A : Aead) (hash : List Char → U64) (s : Sender) (a : SockAddr) (rnd : Option (List Byte)) :
    ∀ w r w', s.sendData A hash a rnd w = (.ok r, w') → r.1.counter.path = s.counter.path := by
  unfold Sender.sendData
  refine returns_bind (fun _ w r w' h => ?_)
  have h : Act.bind s.counter.inc _ w = (.ok r, w') := h
  unfold Act.bind at h
  rcases hi : s.counter.inc w with ⟨o, w1⟩
  rw [hi] at h
  cases o with
  | err e => cases h
  | crash => cases h
  | ok x =>
    obtain ⟨c, e⟩ := x
    have hc : c.path = s.counter.path := inc_path s.counter w _ w1 hi
    cases e with
    | error e => cases h; exact hc
    | ok u =>
      simp only at h
      cases he : encode A s.handler rnd (({ s with counter := c } : Sender).request hash a.ip).serialize with
      | error e => simp only [he] at h; cases h; exact hc
      | ok bytes =>
        simp only [he] at h
        exact returns_bind (R := fun r : Sender × Except Err Unit => r.1.counter.path = s.counter.path) (fun _ w b w' h => by cases h; exact hc) _ _ _ h

theorem pause (s : Sender) (i : Nat) : Tidy P (s.pause i) := by
  unfold Sender.pause
  split
  · exact note _
  · exact pure _

theorem sendLoop (A : Aead) (hash : List Char → U64) (rnd : Nat → Option (List Byte)) (dsts : List SockAddr) :
    ∀ {s : Sender} (_ : P s.counter.path) (i : Nat), Tidy P (s.sendLoop A hash rnd i dsts) := by
  induction dsts with
  | nil => intro s _ i; exact pure _
  | cons a rest ih =>
    intro s hp i
    unfold Sender.sendLoop
    refine bind (pause s i) (fun _ => bindR (sendData A hash hp a _) (sendData_path A hash s a _) ?_)
    rintro ⟨s', r⟩ hs'
    have hp' : P s'.counter.path := by rw [show s'.counter.path = s.counter.path from hs']; exact hp
    cases r with
    | ok u => exact ih hp' _
    | error e => exact bind (note _) (fun _ => bind (ih hp' _) (fun _ => pure _))

theorem send (A : Aead) (hash : List Char → U64) {s : Sender} (hp : P s.counter.path) (env : SendEnv) : Tidy P (s.send A hash env) := by
  unfold Sender.send
  refine bind (ofExcept _) (fun dsts => bind (sendLoop A hash _ _ hp _) ?_)
  rintro ⟨_, n⟩
  simp only
  split
  · exact throw _
  · exact pure _

theorem read (p : Path) : Tidy P (Counter.read p) := by
  refine bind (readFile p) (fun d => ?_)
  split
  · exact throw _
  · exact pure _

theorem createAndInit {p : Path} (hp : P p) (v : U128) : Tidy P (Counter.createAndInit p v) := by
  unfold Counter.createAndInit
  refine bind (attempt (read p)) (fun r => ?_)
  split
  · exact pure _
  · exact bind (write hp) (fun _ => pure _)
  · exact throw _

private theorem createAndInit_path (p : Path) (v : U128) : ∀ w c w', Counter.createAndInit p v w = (.ok c, w') → c.path = p := by
  unfold Counter.createAndInit
  refine returns_bind (fun r w c w' h => ?_)
  split at h
  · cases h; rfl
  · exact returns_bind (R := fun c : Counter => c.path = p) (fun _ w b w' h => by cases h; rfl) _ _ _ h
  · cases h

theorem createSender (dir : Path) (hp : P (counterPath dir)) (cmd : SendCmd) (env : SendEnv) : Tidy P (Sender.create dir cmd env) := by
  unfold Sender.create
  refine bind (ofExcept _) (fun _ => bind (ofExcept _) (fun _ => ?_))
  split
  · exact throw _
  · exact bind (ofExcept _) (fun _ => bind nowNanos (fun _ => bind (createAndInit hp _) (fun _ => pure _)))

private theorem createSender_path (dir : Path) (cmd : SendCmd) (env : SendEnv) :
    ∀ w s w', Sender.create dir cmd env w = (.ok s, w') → s.counter.path = counterPath dir := by
  unfold Sender.create
  refine returns_bind (fun _ => returns_bind (fun _ => ?_))
  cases env.keyText with
  | none => exact fun w b w' h => by cases h
  | some key =>
    refine returns_bind (fun _ => returns_bind (fun now w s w' h => ?_))
    have h : Act.bind (Counter.createAndInit (counterPath dir) now) _ w = (.ok s, w') := h
    unfold Act.bind at h
    rcases hi : Counter.createAndInit (counterPath dir) now w with ⟨o, w1⟩
    rw [hi] at h
    cases o with
    | err e => cases h
    | crash => cases h
    | ok c => cases h; exact createAndInit_path _ _ _ _ _ hi

theorem runSend (A : Aead) (hash : List Char → U64) (dir : Path) (hp : P (counterPath dir)) (hl : P (dir ++ "/client.lock".toList)) (held : Bool) (cmd : SendCmd) (env : SendEnv) :
    Tidy P (Ruroco.runSend A hash dir held cmd env) :=
  bind (acquireLock hl held) (fun _ => bindR (createSender dir hp cmd env) (createSender_path dir cmd env) (fun _ hs => send A hash (by rw [hs]; exact hp) env))

theorem runReseed (dir : Path) (hp : P (counterPath dir)) (hl : P (dir ++ "/client.lock".toList)) (held : Bool) : Tidy P (Ruroco.runReseed dir held) :=
  bind (acquireLock hl held) (fun _ => bind nowNanos (fun _ => write hp))

end Tidy

end Ruroco
