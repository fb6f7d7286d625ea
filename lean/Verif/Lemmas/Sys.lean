import Verif.Model.Sys
import Verif.Spec.Terms.Sys

/-! Weakest-precondition style reasoning for `Act`, and the contract of `write_atomic`. -/

namespace Ruroco

/-- `m` run in `w` ends in an outcome and world satisfying `Q`. -/
def wp (m : Act α) (w : World) (Q : Out α → World → Prop) : Prop := Q (m w).1 (m w).2

theorem wp_pure (a : α) (w : World) (Q : Out α → World → Prop) : wp (pure a) w Q ↔ Q (.ok a) w := Iff.rfl

theorem wp_throw (e : Err) (w : World) (Q : Out α → World → Prop) : wp (Act.throw e) w Q ↔ Q (.err e) w := Iff.rfl

theorem wp_bind (m : Act α) (f : α → Act β) (w : World) (Q : Out β → World → Prop) :
    wp (m >>= f) w Q ↔ wp m w (fun o w' => match o with
      | .ok a => wp (f a) w' Q
      | .err e => Q (.err e) w'
      | .crash => Q .crash w') := by
  show Q (Act.bind m f w).1 (Act.bind m f w).2 ↔ _
  unfold wp Act.bind
  rcases m w with ⟨o, w'⟩
  cases o <;> rfl

theorem wp_attempt (m : Act α) (w : World) (Q : Out (Except Err α) → World → Prop) :
    wp m.attempt w Q ↔ wp m w (fun o w' => match o with
      | .ok a => Q (.ok (.ok a)) w'
      | .err e => Q (.ok (.error e)) w'
      | .crash => Q .crash w') := by
  unfold wp Act.attempt
  rcases m w with ⟨o, w'⟩
  cases o <;> rfl

theorem wp_mono {m : Act α} {w : World} {Q R : Out α → World → Prop} (h : wp m w Q) (hqr : ∀ o w', Q o w' → R o w') : wp m w R :=
  hqr _ _ h

theorem wp_peek (p : Path) (w : World) (Q : Out (Option File) → World → Prop) : wp (peek p) w Q ↔ Q (.ok (w.fs p)) w := Iff.rfl

theorem wp_note (ev : Event) (w : World) (Q : Out Unit → World → Prop) :
    wp (note ev) w Q ↔ Q (.ok ()) { w with log := w.log ++ [ev] } := Iff.rfl

theorem wp_nowNanos (w : World) (Q : Out U128 → World → Prop)
    (hok : ∀ t c, w.clock = some t :: c → Q (.ok t) { w with clock := c })
    (herr : ∀ c, Q (.err .clock) { w with clock := c }) : wp nowNanos w Q := by
  unfold wp nowNanos
  rcases h : w.clock with _ | ⟨t, c⟩
  · have := herr w.clock
    exact this
  · cases t with
    | none => exact herr c
    | some t => exact hok t c h

/-- All events of a list concern file operations on paths satisfying `P`, or failure notes about such paths. -/
def FileEvents (P : Path → Prop) (l : List Event) : Prop :=
  ∀ e ∈ l, match e with
    | .file _ p => P p
    | .statFailed p => P p
    | .dirSyncFailed p => P p
    | _ => False

theorem FileEvents.append {P : Path → Prop} {a b : List Event} (ha : FileEvents P a) (hb : FileEvents P b) : FileEvents P (a ++ b) := by
  intro e he
  rcases List.mem_append.1 he with h | h
  · exact ha e h
  · exact hb e h

/-- `atomicCall` on a call: the three outcomes. -/
theorem wp_atomicCall (ev : Event) (eff : World → World) (w : World) (Q : Out Unit → World → Prop)
    (hok : ∀ o, Q (.ok ()) (eff { w with log := w.log ++ [ev], oracle := o }))
    (herr : ∀ o, Q (.err .io) { w with log := w.log ++ [ev], oracle := o })
    (hc0 : ∀ o, Q .crash { w with log := w.log ++ [ev], oracle := o })
    (hc1 : ∀ o, Q .crash (eff { w with log := w.log ++ [ev], oracle := o })) :
    wp (atomicCall ev eff) w Q := by
  unfold wp atomicCall syscall
  rcases h : w.oracle with _ | ⟨c, o⟩
  · exact hok []
  · cases c with
    | ok => exact hok o
    | err k => exact herr o
    | crash k =>
      simp only
      by_cases hk : k = 0
      · simpa [hk] using hc0 o
      · simpa [hk] using hc1 o

theorem tmpPath_ne (path : Path) (n : U128) : tmpPath path n ≠ path := by
  intro h
  have := congrArg List.length h
  simp [tmpPath] at this

/-- Everything a call leaves alone while preparing the temporary file of `path`. -/
structure Prep (path tmp : Path) (w w' : World) : Prop where
  fs : ∀ q, q ≠ tmp → w'.fs q = w.fs q
  pend : ∀ q, q ≠ tmp → w'.pend q = w.pend q
  umask : w'.umask = w.umask
  cur : w'.cur = w.cur
  log : ∃ l, w'.log = w.log ++ l ∧ FileEvents (fun q => q = path ∨ IsTmpOf path q) l ∧ .dirSyncFailed path ∉ l

/-- Contract of `write_atomic*` at any outcome. -/
structure WroteAtomic (path : Path) (contents : List Byte) (mode : Option Nat) (o : Out Unit) (w w' : World) : Prop where
  frame : ∀ q, q ≠ path → ¬ IsTmpOf path q → w'.fs q = w.fs q ∧ ∀ f ∈ w'.pend q, f ∈ w.pend q
  umask : w'.umask = w.umask
  cur : w'.cur = w.cur
  log : ∃ l, w'.log = w.log ++ l ∧ FileEvents (fun q => q = path ∨ IsTmpOf path q) l
  result : (w'.fs path = w.fs path ∧ w'.pend path = w.pend path ∧ o ≠ .ok ()) ∨
    ((∃ f, w'.fs path = some f ∧ f.data = contents ∧ f.synced = true ∧ (∀ m, mode = some m → f.mode = m)) ∧
      (∀ f ∈ w'.pend path, f ∈ w.fs path :: w.pend path) ∧
      (o = .ok () ∨ o = .crash) ∧
      (o = .ok () → .dirSyncFailed path ∉ w'.log.drop w.log.length → w'.pend path = []))

theorem Prep.refl (path tmp : Path) (w : World) : Prep path tmp w w :=
  ⟨fun _ _ => rfl, fun _ _ => rfl, rfl, rfl, [], by simp, by simp [FileEvents], by simp⟩

theorem Prep.trans {path tmp : Path} {w w' w'' : World} (h : Prep path tmp w w') (h' : Prep path tmp w' w'') :
    Prep path tmp w w'' := by
  obtain ⟨l, hl, hf, hn⟩ := h.log
  obtain ⟨l', hl', hf', hn'⟩ := h'.log
  exact ⟨fun q hq => by rw [h'.fs q hq, h.fs q hq], fun q hq => by rw [h'.pend q hq, h.pend q hq],
    by rw [h'.umask, h.umask], by rw [h'.cur, h.cur],
    l ++ l', by rw [hl', hl, List.append_assoc], hf.append hf', by simp [hn, hn']⟩

theorem Prep.step {path tmp : Path} (ht : IsTmpOf path tmp) {w : World} {op : FileOp} (_o : List Choice) {w' : World}
    (hfs : ∀ q, q ≠ tmp → w'.fs q = w.fs q) (hpend : ∀ q, q ≠ tmp → w'.pend q = w.pend q)
    (hu : w'.umask = w.umask) (hc : w'.cur = w.cur) (hl : w'.log = w.log ++ [.file op tmp]) : Prep path tmp w w' :=
  ⟨hfs, hpend, hu, hc, [.file op tmp], hl, by intro e he; simp at he; subst he; exact Or.inr ht, by simp⟩

theorem Prep.wrote {path tmp : Path} (hne : tmp ≠ path) (ht : IsTmpOf path tmp) {w w' : World} (h : Prep path tmp w w')
    (contents : List Byte) (mode : Option Nat) (o : Out Unit) (ho : o ≠ .ok ()) : WroteAtomic path contents mode o w w' := by
  obtain ⟨l, hl, hf, _⟩ := h.log
  refine ⟨?_, h.umask, h.cur, ⟨l, hl, hf⟩, Or.inl ⟨h.fs _ (Ne.symm hne), h.pend _ (Ne.symm hne), ho⟩⟩
  intro q _ hq
  have : q ≠ tmp := fun e => hq (e ▸ ht)
  exact ⟨h.fs q this, by rw [h.pend q this]; exact fun f hf => hf⟩

theorem prep_openTrunc {path tmp : Path} (ht : IsTmpOf path tmp) (w : World) :
    wp (openTrunc tmp) w (fun o w' => Prep path tmp w w' ∧
      (o = .ok () → ∃ f, w'.fs tmp = some f ∧ f.data = []) ∧ o ≠ .err .notFound) := by
  unfold openTrunc
  apply wp_atomicCall
  · intro o
    refine ⟨Prep.step ht (op := .openTrunc) o ?_ ?_ rfl rfl rfl, fun _ => ?_, by simp⟩
    · intro q hq; simp [World.setEntry, hq]
    · intro q hq; simp [World.setEntry, hq]
    · simp [World.setEntry]
  · intro o
    exact ⟨Prep.step ht (op := .openTrunc) o (fun _ _ => rfl) (fun _ _ => rfl) rfl rfl rfl, by simp, by simp⟩
  · intro o
    exact ⟨Prep.step ht (op := .openTrunc) o (fun _ _ => rfl) (fun _ _ => rfl) rfl rfl rfl, by simp, by simp⟩
  · intro o
    refine ⟨Prep.step ht (op := .openTrunc) o ?_ ?_ rfl rfl rfl, by simp, by simp⟩
    · intro q hq; simp [World.setEntry, hq]
    · intro q hq; simp [World.setEntry, hq]

theorem append_frame (w : World) (p : Path) (bs : List Byte) :
    (∀ q, q ≠ p → (w.append p bs).fs q = w.fs q) ∧ (w.append p bs).pend = w.pend ∧ (w.append p bs).umask = w.umask ∧
      (w.append p bs).cur = w.cur ∧ (w.append p bs).log = w.log := by
  unfold World.append
  split
  · refine ⟨?_, rfl, rfl, rfl, rfl⟩
    intro q hq; simp [World.setFile, hq]
  · exact ⟨fun _ _ => rfl, rfl, rfl, rfl, rfl⟩

theorem prep_writeAll {path tmp : Path} (ht : IsTmpOf path tmp) (w : World) (bs : List Byte) :
    wp (writeAll tmp bs) w (fun o w' => Prep path tmp w w' ∧
      (o = .ok () → ∀ f, w.fs tmp = some f → ∃ f', w'.fs tmp = some f' ∧ f'.data = f.data ++ bs)) := by
  have key : ∀ (o : List Choice) (b : List Byte),
      Prep path tmp w (({ w with log := w.log ++ [.file .write tmp], oracle := o } : World).append tmp b) := by
    intro o b
    have h := append_frame ({ w with log := w.log ++ [.file .write tmp], oracle := o } : World) tmp b
    exact Prep.step ht (op := .write) o h.1 (fun q _ => by rw [h.2.1]) h.2.2.1 h.2.2.2.1 h.2.2.2.2
  have hok : ∀ (o : List Choice) (f : File), w.fs tmp = some f →
      ∃ f', (({ w with log := w.log ++ [.file .write tmp], oracle := o } : World).append tmp bs).fs tmp = some f' ∧
        f'.data = f.data ++ bs := by
    intro o f hf
    simp [World.append, hf, World.setFile]
  unfold wp writeAll syscall
  rcases h : w.oracle with _ | ⟨c, o⟩
  · exact ⟨key [] bs, fun _ => hok []⟩
  · cases c with
    | ok => exact ⟨key o bs, fun _ => hok o⟩
    | err k => exact ⟨key o _, by simp⟩
    | crash k => exact ⟨key o _, by simp⟩

theorem prep_fsync {path tmp : Path} (ht : IsTmpOf path tmp) (w : World) :
    wp (fsync tmp) w (fun o w' => Prep path tmp w w' ∧
      (o = .ok () → ∀ f, w.fs tmp = some f → ∃ f', w'.fs tmp = some f' ∧ f'.data = f.data ∧ f'.synced = true)) := by
  have key : ∀ (o : List Choice) (e : World → World),
      (e = fun w => match w.fs tmp with | some f => w.setFile tmp (some { f with synced := true }) | none => w) →
      Prep path tmp w (e { w with log := w.log ++ [.file .fsync tmp], oracle := o }) := by
    intro o e he
    subst he
    simp only
    split
    · refine Prep.step ht (op := .fsync) o ?_ (fun _ _ => rfl) rfl rfl rfl
      intro q hq; simp [World.setFile, hq]
    · exact Prep.step ht (op := .fsync) o (fun _ _ => rfl) (fun _ _ => rfl) rfl rfl rfl
  unfold fsync
  apply wp_atomicCall
  · intro o
    refine ⟨key o _ rfl, fun _ f hf => ?_⟩
    simp [hf, World.setFile]
  · intro o
    exact ⟨Prep.step ht (op := .fsync) o (fun _ _ => rfl) (fun _ _ => rfl) rfl rfl rfl, by simp⟩
  · intro o
    exact ⟨Prep.step ht (op := .fsync) o (fun _ _ => rfl) (fun _ _ => rfl) rfl rfl rfl, by simp⟩
  · intro o
    exact ⟨key o _ rfl, by simp⟩

theorem prep_stat {path tmp : Path} (ht : IsTmpOf path tmp) (w : World) :
    wp (stat tmp) w (fun _ w' => Prep path tmp w w' ∧ w'.fs tmp = w.fs tmp) := by
  unfold stat
  rw [wp_bind]
  have hp : ∀ o, Prep path tmp w { w with log := w.log ++ [.file .stat tmp], oracle := o } := fun o =>
    Prep.step ht (op := .stat) o (fun _ _ => rfl) (fun _ _ => rfl) rfl rfl rfl
  apply wp_atomicCall <;> intro o
  · simp only [id]
    rw [wp_bind, wp_peek]
    simp only
    split
    · exact ⟨hp o, rfl⟩
    · exact ⟨hp o, rfl⟩
  · exact ⟨hp o, rfl⟩
  · exact ⟨hp o, rfl⟩
  · exact ⟨hp o, rfl⟩

theorem prep_chmod {path tmp : Path} (ht : IsTmpOf path tmp) (w : World) (m : Nat) :
    wp (chmod tmp m) w (fun o w' => Prep path tmp w w' ∧
      (o = .ok () → ∀ f, w.fs tmp = some f → ∃ f', w'.fs tmp = some f' ∧ f'.data = f.data ∧ f'.synced = f.synced ∧ f'.mode = m)) := by
  unfold chmod
  rw [wp_bind, wp_peek]
  cases hf : w.fs tmp with
  | none => exact ⟨Prep.refl _ _ _, by simp⟩
  | some f =>
    simp only
    apply wp_atomicCall
    · intro o
      refine ⟨Prep.step ht (op := .chmod) o ?_ (fun _ _ => rfl) rfl rfl rfl, fun _ f' hf' => ?_⟩
      · intro q hq; simp [World.setFile, hq]
      · cases hf'
        simp [World.setFile]
    · intro o
      exact ⟨Prep.step ht (op := .chmod) o (fun _ _ => rfl) (fun _ _ => rfl) rfl rfl rfl, by simp⟩
    · intro o
      exact ⟨Prep.step ht (op := .chmod) o (fun _ _ => rfl) (fun _ _ => rfl) rfl rfl rfl, by simp⟩
    · intro o
      refine ⟨Prep.step ht (op := .chmod) o ?_ (fun _ _ => rfl) rfl rfl rfl, by simp⟩
      intro q hq; simp [World.setFile, hq]

/-- After the rename, whatever the directory fsync does. -/
theorem wrote_after_rename {path tmp : Path} (hne : tmp ≠ path) (ht : IsTmpOf path tmp) {w w1 : World} (h : Prep path tmp w w1)
    {f : File} (contents : List Byte) (mode : Option Nat) (hf : f.data = contents ∧ f.synced = true ∧ ∀ m, mode = some m → f.mode = m)
    (orc : List Choice) (w2 : World)
    (hw2 : w2 = (({ w1 with log := w1.log ++ [.file .rename path], oracle := orc } : World).setEntry path (some f)).setEntry tmp none) :
    WroteAtomic path contents mode .crash w w2 ∧
    wp (fsyncDir path) w2 (fun o w' => WroteAtomic path contents mode o w w') := by
  obtain ⟨l, hl, hfe, hnd⟩ := h.log
  have hpath : w2.fs path = some f := by subst hw2; simp [World.setEntry, Ne.symm hne]
  have hpend : w2.pend path = w.fs path :: w.pend path := by
    subst hw2; simp [World.setEntry, Ne.symm hne, h.fs path (Ne.symm hne), h.pend path (Ne.symm hne)]
  have hfs : ∀ q, q ≠ path → q ≠ tmp → w2.fs q = w.fs q := by
    intro q h1 h2; subst hw2; simp [World.setEntry, h1, h2, h.fs q h2]
  have hpd : ∀ q, q ≠ path → q ≠ tmp → w2.pend q = w.pend q := by
    intro q h1 h2; subst hw2; simp [World.setEntry, h1, h2, h.pend q h2]
  have hlog : w2.log = w.log ++ (l ++ [.file .rename path]) := by subst hw2; simp [World.setEntry, hl]
  have hum : w2.umask = w.umask := by subst hw2; simp [World.setEntry, h.umask]
  have hcur : w2.cur = w.cur := by subst hw2; simp [World.setEntry, h.cur]
  have hfe2 : FileEvents (fun q => q = path ∨ IsTmpOf path q) (l ++ [.file .rename path]) :=
    hfe.append (by intro e he; simp at he; subst he; exact Or.inl rfl)
  have hfile : ∃ f', some f = some f' ∧ f'.data = contents ∧ f'.synced = true ∧ (∀ m, mode = some m → f'.mode = m) := ⟨f, rfl, hf⟩
  clear hw2
  constructor
  · refine ⟨?_, hum, hcur, ⟨_, hlog, hfe2⟩, Or.inr ⟨by rw [hpath]; exact hfile, by rw [hpend]; exact fun _ h => h, Or.inr rfl, by simp⟩⟩
    intro q h1 h2
    have : q ≠ tmp := fun e => h2 (e ▸ ht)
    exact ⟨hfs q h1 this, by rw [hpd q h1 this]; exact fun _ h => h⟩
  · -- generic conclusion for a world that differs from `w2` only in log, oracle and cleared pend
    have fin : ∀ (o : Out Unit) (w' : World) (es : List Event), (o = .ok () ∨ o = .crash) → w'.fs = w2.fs →
        (∀ q, ∀ f ∈ w'.pend q, f ∈ w2.pend q) → w'.umask = w2.umask → w'.cur = w2.cur → w'.log = w2.log ++ es →
        FileEvents (fun q => q = path ∨ IsTmpOf path q) es →
        (o = .ok () → .dirSyncFailed path ∉ es → w'.pend path = []) → WroteAtomic path contents mode o w w' := by
      intro o w' es ho h1 h2 h3 h4 h5 h6 h7
      refine ⟨?_, by rw [h3, hum], by rw [h4, hcur],
        ⟨(l ++ [.file .rename path]) ++ es, by rw [h5, hlog, List.append_assoc], hfe2.append h6⟩,
        Or.inr ⟨by rw [h1, hpath]; exact hfile, ?_, ho, ?_⟩⟩
      · intro q hq1 hq2
        have hqt : q ≠ tmp := fun e => hq2 (e ▸ ht)
        exact ⟨by rw [h1, hfs q hq1 hqt], fun f hf => by have := h2 q f hf; rwa [hpd q hq1 hqt] at this⟩
      · intro f hf
        have := h2 path f hf
        rwa [hpend] at this
      · intro ho' hnm
        apply h7 ho'
        intro hm
        apply hnm
        rw [h5, hlog, List.append_assoc, List.drop_left]
        exact List.mem_append_right _ hm
    unfold fsyncDir
    split
    · rw [wp_note]
      refine fin _ _ [.dirSyncFailed path] (Or.inl rfl) rfl (fun _ _ h => h) rfl rfl rfl ?_ (by simp)
      intro e he; simp at he; subst he; exact Or.inl rfl
    · have hone : FileEvents (fun q => q = path ∨ IsTmpOf path q) [.file .fsyncDir path] := by
        intro e he; simp at he; subst he; exact Or.inl rfl
      rw [wp_bind, wp_attempt]
      apply wp_atomicCall
      · intro o
        simp only [wp_pure]
        refine fin _ _ [.file .fsyncDir path] (Or.inl rfl) rfl ?_ rfl rfl rfl hone (fun _ _ => by simp)
        intro q f hf
        simp only at hf
        split at hf
        · simp at hf
        · exact hf
      · intro o
        simp only [wp_note]
        refine fin _ _ ([.file .fsyncDir path] ++ [.dirSyncFailed path]) (Or.inl rfl) rfl (fun _ _ h => h) rfl rfl
          (by simp) ?_ (by simp)
        exact hone.append (by intro e he; simp at he; subst he; exact Or.inl rfl)
      · intro o
        exact fin _ _ [.file .fsyncDir path] (Or.inr rfl) rfl (fun _ _ h => h) rfl rfl rfl hone (by simp)
      · intro o
        refine fin _ _ [.file .fsyncDir path] (Or.inr rfl) rfl ?_ rfl rfl rfl hone (by simp)
        intro q f hf
        simp only at hf
        split at hf
        · simp at hf
        · exact hf

theorem wp_rename_some (a b : Path) (w : World) (f : File) (hf : w.fs a = some f) (Q : Out Unit → World → Prop) :
    wp (rename a b) w Q ↔ wp (atomicCall (.file .rename b) (fun w => (w.setEntry b (some f)).setEntry a none)) w Q := by
  unfold rename
  rw [wp_bind, wp_peek, hf]

/-- **Contract of `write_atomic_with_mode`** for every oracle. -/
theorem writeAtomicWithMode_spec (path : Path) (contents : List Byte) (mode : Option Nat) (w : World) :
    wp (writeAtomicWithMode path contents mode) w (fun o w' => WroteAtomic path contents mode o w w') := by
  unfold writeAtomicWithMode
  rw [wp_bind]
  apply wp_nowNanos
  case herr =>
    intro c
    have h : Prep path (tmpPath path 0) w { w with clock := c } :=
      ⟨fun _ _ => rfl, fun _ _ => rfl, rfl, rfl, [], by simp, by simp [FileEvents], by simp⟩
    exact h.wrote (tmpPath_ne _ _) ⟨0, rfl⟩ _ _ _ (by simp)
  case hok =>
    intro t c hcl
    simp only
    have hne := tmpPath_ne path t
    have ht : IsTmpOf path (tmpPath path t) := ⟨t, rfl⟩
    generalize tmpPath path t = tmp at hne ht
    have h0 : Prep path tmp w { w with clock := c } :=
      ⟨fun _ _ => rfl, fun _ _ => rfl, rfl, rfl, [], by simp, by simp [FileEvents], by simp⟩
    generalize ({ w with clock := c } : World) = w0 at h0
    clear hcl
    rw [wp_bind]
    refine wp_mono (prep_openTrunc ht w0) ?_
    rintro o w1 ⟨p1, hfile1, _⟩
    have h1 := h0.trans p1
    cases o with
    | err e => exact h1.wrote hne ht _ _ _ (by simp)
    | crash => exact h1.wrote hne ht _ _ _ (by simp)
    | ok a =>
      obtain ⟨f1, hf1, hd1⟩ := hfile1 rfl
      simp only
      rw [wp_bind]
      refine wp_mono (prep_writeAll ht w1 contents) ?_
      rintro o w2 ⟨p2, hfile2⟩
      have h2 := h1.trans p2
      cases o with
      | err e => exact h2.wrote hne ht _ _ _ (by simp)
      | crash => exact h2.wrote hne ht _ _ _ (by simp)
      | ok a =>
        obtain ⟨f2, hf2, hd2⟩ := hfile2 rfl f1 hf1
        simp only
        rw [wp_bind]
        refine wp_mono (prep_fsync ht w2) ?_
        rintro o w3 ⟨p3, hfile3⟩
        have h3 := h2.trans p3
        cases o with
        | err e => exact h3.wrote hne ht _ _ _ (by simp)
        | crash => exact h3.wrote hne ht _ _ _ (by simp)
        | ok a =>
          obtain ⟨f3, hf3, hd3, hs3⟩ := hfile3 rfl f2 hf2
          have hd3 : f3.data = contents := by rw [hd3, hd2, hd1]; rfl
          simp only
          -- the tail after the optional chmod
          have tail : ∀ (w4 : World) (f4 : File), Prep path tmp w w4 → w4.fs tmp = some f4 → f4.data = contents →
              f4.synced = true → (∀ m, mode = some m → f4.mode = m) →
              wp (rename tmp path >>= fun _ => fsyncDir path) w4 (fun o w' => WroteAtomic path contents mode o w w') := by
            intro w4 f4 h4 hf4 hd4 hs4 hm4
            rw [wp_bind, wp_rename_some _ _ _ _ hf4]
            apply wp_atomicCall
            · intro o
              exact (wrote_after_rename hne ht h4 contents mode ⟨hd4, hs4, hm4⟩ o _ rfl).2
            · intro o
              refine (h4.trans ?_).wrote hne ht _ _ _ (by simp)
              exact ⟨fun _ _ => rfl, fun _ _ => rfl, rfl, rfl, [.file .rename path], rfl,
                by intro e he; simp at he; subst he; exact Or.inl rfl, by simp⟩
            · intro o
              refine (h4.trans ?_).wrote hne ht _ _ _ (by simp)
              exact ⟨fun _ _ => rfl, fun _ _ => rfl, rfl, rfl, [.file .rename path], rfl,
                by intro e he; simp at he; subst he; exact Or.inl rfl, by simp⟩
            · intro o
              exact (wrote_after_rename hne ht h4 contents mode ⟨hd4, hs4, hm4⟩ o _ rfl).1
          cases mode with
          | none =>
            exact tail w3 f3 h3 hf3 hd3 hs3 (by simp)
          | some m =>
            simp only
            rw [wp_bind]
            refine wp_mono (prep_stat ht w3) ?_
            rintro o w4 ⟨p4, hf4⟩
            have h4 := h3.trans p4
            cases o with
            | err e => exact h4.wrote hne ht _ _ _ (by simp)
            | crash => exact h4.wrote hne ht _ _ _ (by simp)
            | ok st =>
              simp only
              rw [wp_bind]
              refine wp_mono (prep_chmod ht w4 m) ?_
              rintro o w5 ⟨p5, hfile5⟩
              have h5 := h4.trans p5
              cases o with
              | err e => exact h5.wrote hne ht _ _ _ (by simp)
              | crash => exact h5.wrote hne ht _ _ _ (by simp)
              | ok a =>
                obtain ⟨f5, hf5, hd5, hs5, hm5⟩ := hfile5 rfl f3 (by rw [hf4, hf3])
                exact tail w5 f5 h5 hf5 (by rw [hd5, hd3]) (by rw [hs5, hs3]) (by intro m' hm'; cases hm'; exact hm5)

theorem writeAtomic_spec (path : Path) (contents : List Byte) (w : World) :
    wp (writeAtomic path contents) w (fun o w' => WroteAtomic path contents none o w w') :=
  writeAtomicWithMode_spec path contents none w

end Ruroco
