import Verif.Lemmas.Ui
import Verif.Lemmas.Client

/-! # Effects of the graphical client on files -/

namespace Ruroco

open Spec

/-- The counter file and its temporary files. -/
def CounterFiles (p q : Path) : Prop := q = p ∨ IsTmpOf p q

theorem WroteAtomic.touch {path : Path} {contents : List Byte} {mode : Option Nat} {o : Out Unit} {w w' : World} (h : WroteAtomic path contents mode o w w') :
    Touch (CounterFiles path) w w' := by
  obtain ⟨l, hl, _⟩ := h.log
  exact ⟨fun q hq => (h.frame q (fun e => hq (Or.inl e)) (fun e => hq (Or.inr e))).1, hl ▸ List.prefix_append _ _⟩

theorem touch_of_same {P : Path → Prop} {w w' : World} (hfs : w'.fs = w.fs) (hl : ∃ l, w'.log = w.log ++ l) : Touch P w w' := by
  obtain ⟨l, hl⟩ := hl
  exact ⟨fun q _ => by rw [hfs], hl ▸ List.prefix_append _ _⟩

theorem ReadOnly.touch {P : Path → Prop} {p : Path} {w w' : World} (h : ReadOnly p w w') : Touch P w w' :=
  touch_of_same h.fs (by obtain ⟨l, h, _⟩ := h.log; exact ⟨l, h⟩)

theorem create_touch (dir : Path) (cmd : SendCmd) (env : SendEnv) (w : World) :
    wp (Sender.create dir cmd env) w (fun o w' => Touch (CounterFiles (counterPath dir)) w w' ∧ ∀ s, o = .ok s → s.counter.path = counterPath dir) := by
  have refl := (touch_pre (CounterFiles (counterPath dir))).refl w
  unfold Sender.create
  rw [wp_bind, wp_ofExcept]
  cases ensurePort cmd.address DEFAULT_PORT with
  | error e => exact ⟨refl, nofun⟩
  | ok addr =>
    simp only
    rw [wp_bind, wp_ofExcept]
    cases parseIpOption cmd.ip with
    | error e => exact ⟨refl, nofun⟩
    | ok ip =>
      simp only
      cases env.keyText with
      | none => exact ⟨refl, nofun⟩
      | some key =>
        simp only
        rw [wp_bind, wp_ofExcept]
        cases CryptoHandler.create (trim key) with
        | error e => exact ⟨refl, nofun⟩
        | ok h =>
          simp only
          rw [wp_bind]
          refine wp_nowNanos _ _ (fun t c _ => ?_) (fun c => ⟨touch_of_same rfl ⟨[], by simp⟩, nofun⟩)
          simp only
          rw [wp_bind]
          have t1 : Touch (CounterFiles (counterPath dir)) w { w with clock := c } := touch_of_same rfl ⟨[], by simp⟩
          refine wp_mono (Counter.createAndInit_spec _ _ _) ?_
          intro o w1 hi
          generalize hw0 : ({ w with clock := c } : World) = w0 at hi t1
          cases hi with
          | found c' _ hro hd => exact ⟨t1.trans hro.touch, by rintro s hs; cases hs; rfl⟩
          | seeded w2 _ hro _ h2 => exact ⟨(t1.trans hro.touch).trans h2.touch, by rintro s hs; cases hs; rfl⟩
          | seedFailed e w2 _ hro _ h2 => exact ⟨(t1.trans hro.touch).trans h2.touch, nofun⟩
          | seedCrashed w2 _ hro _ h2 => exact ⟨(t1.trans hro.touch).trans h2.touch, nofun⟩
          | refused e _ hro _ => exact ⟨t1.trans hro.touch, nofun⟩
          | crashed _ hro => exact ⟨t1.trans hro.touch, nofun⟩

theorem sendData_touch (A : Aead) (hash : List Char → U64) (s : Sender) (addr : SockAddr) (rnd : Option (List Byte)) (w : World) :
    wp (s.sendData A hash addr rnd) w (fun o w' => Touch (CounterFiles s.counter.path) w w' ∧ ∀ r, o = .ok r → r.1.counter.path = s.counter.path) := by
  refine wp_mono (sendData_spec A hash s addr rnd w) ?_
  intro o w' h
  have t0 : Touch (CounterFiles s.counter.path) w { w with log := w.log ++ [.sendTo addr.ip addr.port] } := touch_of_same rfl ⟨_, rfl⟩
  cases h with
  | overflow _ _ hfs _ hlog => exact ⟨touch_of_same hfs ⟨_, hlog⟩, by rintro r hr; cases hr; rfl⟩
  | writeFailed _ e _ h => exact ⟨t0.trans h.touch, by rintro r hr; cases hr; rfl⟩
  | writeCrashed _ _ h => exact ⟨t0.trans h.touch, nofun⟩
  | encryptFailed _ e _ _ h => exact ⟨t0.trans h.touch, by rintro r hr; cases hr; rfl⟩
  | net _ _ w1 _ _ h hfs _ _ l _ hlog _ ho =>
    refine ⟨(t0.trans h.touch).trans (touch_of_same hfs ⟨_, hlog⟩), ?_⟩
    rintro r rfl
    rcases ho with ho | ho | ⟨ho, _⟩
    · cases ho
    · cases ho; rfl
    · cases ho; rfl

theorem sendLoop_touch (A : Aead) (hash : List Char → U64) (rnd : Nat → Option (List Byte)) (s : Sender) (i : Nat) (l : List SockAddr) :
    Always (Touch (CounterFiles s.counter.path)) (s.sendLoop A hash rnd i l) := by
  induction l generalizing s i with
  | nil => exact Always.pure (touch_pre _) _
  | cons a l ih =>
    intro w
    show wp (s.sendLoop A hash rnd i (a :: l)) w (fun _ w' => Touch (CounterFiles s.counter.path) w w')
    unfold Sender.sendLoop
    rw [wp_bind]
    have hp : wp (s.pause i) w (fun o w' => Touch (CounterFiles s.counter.path) w w' ∧ ∀ e, o ≠ .err e) := by
      unfold Sender.pause
      split
      · exact ⟨touch_of_same rfl ⟨_, rfl⟩, nofun⟩
      · exact ⟨(touch_pre _).refl w, nofun⟩
    refine wp_mono hp ?_
    rintro o w1 ⟨t1, hn⟩
    cases o with
    | err e => exact absurd rfl (hn e)
    | crash => exact t1
    | ok u =>
      simp only
      rw [wp_bind]
      refine wp_mono (sendData_touch A hash s a (rnd i) w1) ?_
      rintro o w2 ⟨t2, hpath⟩
      have t12 := t1.trans t2
      cases o with
      | err e => exact t12
      | crash => exact t12
      | ok r =>
        obtain ⟨s', r⟩ := r
        have hps := hpath _ rfl
        simp only at hps
        have rest : ∀ (w3 : World), Touch (CounterFiles s.counter.path) w w3 → wp (s'.sendLoop A hash rnd (i + 1) l) w3 (fun _ w' => Touch (CounterFiles s.counter.path) w w') := by
          intro w3 t3
          have := ih s' (i + 1) w3
          rw [hps] at this
          exact t3.trans this
        cases r with
        | ok _ => exact rest w2 t12
        | error e =>
          simp only
          rw [wp_bind, wp_note]
          simp only
          rw [wp_bind]
          refine wp_mono (rest _ (t12.trans (touch_of_same rfl ⟨_, rfl⟩))) ?_
          intro o w4 t4
          cases o <;> exact t4

theorem send_touch (A : Aead) (hash : List Char → U64) (s : Sender) (env : SendEnv) : Always (Touch (CounterFiles s.counter.path)) (s.send A hash env) := by
  unfold Sender.send Sender.sendToDestinations
  refine Always.bind (touch_pre _) (Always.ofExcept (touch_pre _) _) (fun dsts => Always.bind (touch_pre _) (sendLoop_touch A hash env.rnd s 0 dsts) ?_)
  rintro ⟨_, n⟩
  simp only
  split
  · exact Always.throw (touch_pre _) _
  · exact Always.pure (touch_pre _) _

theorem readFile_spec (p : Path) (w : World) : wp (readFile p) w (fun o w' => w'.fs = w.fs ∧ (∃ l, w'.log = w.log ++ l) ∧
    ((∃ f, w.fs p = some f ∧ o = .ok f.data) ∨ (o = .err .notFound ∧ w.fs p = none) ∨ (o = .err .io ∧ ∃ k, w.oracle.head? = some (.err k)) ∨ o = .crash)) := by
  unfold readFile
  rw [wp_bind]
  unfold wp atomicCall syscall
  have fin : ∀ w1 : World, w1.fs = w.fs → wp (do match ← peek p with | some f => pure f.data | none => Act.throw .notFound) w1 (fun o w' => w'.fs = w.fs ∧ w'.log = w1.log ∧
      ((∃ f, w.fs p = some f ∧ o = .ok f.data) ∨ (o = .err .notFound ∧ w.fs p = none))) := by
    intro w1 h1
    rw [wp_bind, wp_peek]
    simp only
    cases hf : w1.fs p with
    | none => exact ⟨h1, rfl, Or.inr ⟨rfl, by rw [← h1]; exact hf⟩⟩
    | some f => exact ⟨h1, rfl, Or.inl ⟨f, by rw [← h1]; exact hf, rfl⟩⟩
  rcases ho : w.oracle with _ | ⟨c, o⟩
  · obtain ⟨a, b, c⟩ := fin { w with log := w.log ++ [.file .read p], oracle := [] } rfl
    simp only
    refine ⟨a, ⟨_, b⟩, ?_⟩
    rcases c with c | c
    · exact Or.inl c
    · exact Or.inr (Or.inl c)
  · cases c with
    | ok =>
      obtain ⟨a, b, c⟩ := fin { w with log := w.log ++ [.file .read p], oracle := o } rfl
      simp only
      refine ⟨a, ⟨_, b⟩, ?_⟩
      rcases c with c | c
      · exact Or.inl c
      · exact Or.inr (Or.inl c)
    | err k => exact ⟨rfl, ⟨_, rfl⟩, Or.inr (Or.inr (Or.inl ⟨rfl, k, rfl⟩))⟩
    | crash k =>
      refine ⟨?_, ⟨[.file .read p], ?_⟩, Or.inr (Or.inr (Or.inr rfl))⟩ <;> (simp only; split <;> rfl)

theorem sendWithKeyFile_touch (A : Aead) (hash : List Char → U64) (T : TextCodec) (dir p : Path) (env : ExecEnv) (c : CommandData) :
    Always (Touch (CounterFiles (counterPath dir))) (sendWithKeyFile A hash T dir p env c) := by
  intro w
  show wp (sendWithKeyFile A hash T dir p env c) w (fun _ w' => Touch (CounterFiles (counterPath dir)) w w')
  unfold sendWithKeyFile
  rw [wp_bind, wp_attempt]
  refine wp_mono (readFile_spec p w) ?_
  rintro o w1 ⟨hfs, hl, _⟩
  have t1 : Touch (CounterFiles (counterPath dir)) w w1 := touch_of_same hfs hl
  have rest : ∀ senv : SendEnv, wp (do let s ← Sender.create dir c.toSend senv; s.send A hash senv) w1 (fun _ w' => Touch (CounterFiles (counterPath dir)) w w') := by
    intro senv
    rw [wp_bind]
    refine wp_mono (create_touch dir c.toSend senv w1) ?_
    rintro o w2 ⟨t2, hp⟩
    cases o with
    | err e => exact t1.trans t2
    | crash => exact t1.trans t2
    | ok s =>
      have := send_touch A hash s senv w2
      rw [hp s rfl] at this
      exact (t1.trans t2).trans this
  cases o with
  | crash => exact t1
  | ok b => exact rest _
  | err e => exact rest _

/-! ## The temporary key file -/

theorem tempKey_not_counter (dir d : Path) : ¬ CounterFiles (counterPath dir) (tempKeyPath dir d) := by
  unfold tempKeyPath counterPath
  rintro (h | ⟨n, h⟩)
  · rw [List.append_assoc] at h
    have := List.append_cancel_left h
    revert this
    rw [show "/.tmp".toList = '/' :: '.' :: "tmp".toList from rfl, show "/counter".toList = '/' :: 'c' :: "ounter".toList from rfl]
    simp
  · unfold tmpPath at h
    rw [List.append_assoc, List.append_assoc] at h
    have := List.append_cancel_left h
    revert this
    rw [show "/.tmp".toList = '/' :: '.' :: "tmp".toList from rfl, show "/counter".toList = '/' :: 'c' :: "ounter".toList from rfl]
    simp

theorem private_mode (u : Nat) : (0o600 - (0o600 &&& u)) &&& 0o077 = 0 := by
  have h : 0o600 &&& u = 0o600 &&& (u % 2 ^ 9) := by
    have := Nat.and_mod_two_pow (a := 0o600) (b := u) (n := 9)
    rw [Nat.mod_eq_of_lt] at this
    · exact this
    · exact Nat.lt_of_le_of_lt Nat.and_le_left (by decide)
  rw [h]
  have hlt : u % 2 ^ 9 < 512 := Nat.mod_lt _ (by decide)
  revert hlt
  generalize u % 2 ^ 9 = n
  revert n
  decide +kernel

/-- A file only its owner can access, holding a part of `bytes`. -/
def PrivatePart (bytes : List Byte) (f : File) : Prop := f.mode &&& 0o077 = 0 ∧ ∃ k, f.data = bytes.take k

/-- State while the key file `p` may exist. -/
structure WithKeyFile (dir p : Path) (bytes : List Byte) (w w' : World) : Prop where
  touch : Touch (fun q => q = p ∨ CounterFiles (counterPath dir) q) w w'
  file : w'.fs p = none ∨ ∃ f, w'.fs p = some f ∧ PrivatePart bytes f

/-- Result of creating the temporary file. -/
inductive NewTemp (dir : Path) (draws : List (List Char)) (w : World) : Out Path → World → Prop
  | made (d : List Char) (hd : d ∈ draws) (o : Out Path) (w' : World) (habs : w.fs (tempKeyPath dir d) = none) (ho : o = .ok (tempKeyPath dir d) ∨ o = .crash)
      (ht : Touch (· = tempKeyPath dir d) w w') (f : File) (hf : w'.fs (tempKeyPath dir d) = some f) (hm : f.mode &&& 0o077 = 0) (hdata : f.data = []) : NewTemp dir draws w o w'
  | failed (o : Out Path) (w' : World) (ho : ∀ p, o ≠ .ok p) (ht : Touch (fun _ => False) w w') : NewTemp dir draws w o w'

theorem newTempFile_spec (dir : Path) (draws : List (List Char)) (w : World) : wp (newTempFile dir draws) w (NewTemp dir draws w) := by
  induction draws with
  | nil => exact .failed _ _ nofun ((touch_pre _).refl w)
  | cons d ds ih =>
    unfold newTempFile
    rw [wp_bind, wp_peek]
    simp only
    cases hf : w.fs (tempKeyPath dir d) with
    | some f =>
      refine wp_mono ih ?_
      intro o w' h
      cases h with
      | made d' hd' o w' habs ho ht f hf hm hdata => exact .made d' (List.mem_cons_of_mem _ hd') o w' habs ho ht f hf hm hdata
      | failed o w' ho ht => exact .failed o w' ho ht
    | none =>
      simp only
      rw [wp_bind]
      have same : ∀ (o : List Choice) (out : Out Path), (∀ p, out ≠ .ok p) → NewTemp dir (d :: ds) w out { w with log := w.log ++ [.file .openTrunc (tempKeyPath dir d)], oracle := o } :=
        fun o out ho => .failed _ _ ho (touch_of_same rfl ⟨_, rfl⟩)
      have made : ∀ (o : List Choice) (out : Out Path), (out = .ok (tempKeyPath dir d) ∨ out = .crash) → NewTemp dir (d :: ds) w out
          (World.setEntry { w with log := w.log ++ [.file .openTrunc (tempKeyPath dir d)], oracle := o } (tempKeyPath dir d) (some ⟨[], 0o600 - (0o600 &&& w.umask), false, .creator⟩)) := by
        intro o out ho
        exact .made d (List.mem_cons_self ..) _ _ hf ho ⟨fun q hq => by simp [World.setEntry, hq], List.prefix_append _ _⟩ _ (if_pos rfl) (private_mode _) rfl
      exact wp_atomicCall _ _ _ _ (fun o => made o _ (Or.inl rfl)) (fun o => same o _ nofun) (fun o => same o _ nofun) (fun o => made o _ (Or.inr rfl))

theorem dropTempFile_spec (p : Path) (w : World) : wp (removeIgnoring p) w (fun o w' => Touch (· = p) w w' ∧ (w'.fs p = none ∨ w'.fs p = w.fs p) ∧ (∀ e, o ≠ .err e) ∧
    (o = .ok () → .removeFailed p ∉ w'.log.drop w.log.length → w'.fs p = none)) := by
  unfold removeIgnoring removeFile
  rw [wp_bind, wp_attempt, wp_bind, wp_peek]
  simp only
  cases hf : w.fs p with
  | none =>
    simp only
    rw [wp_throw]
    exact ⟨(touch_pre _).refl w, Or.inl hf, nofun, fun _ _ => hf⟩
  | some f =>
    simp only
    have gone : ∀ (o : List Choice) (out : Out Unit), (∀ e, out ≠ .err e) → Touch (· = p) w (World.setEntry { w with log := w.log ++ [.file .remove p], oracle := o } p none) ∧
        ((World.setEntry { w with log := w.log ++ [.file .remove p], oracle := o } p none).fs p = none ∨
          (World.setEntry { w with log := w.log ++ [.file .remove p], oracle := o } p none).fs p = some f) ∧ (∀ e, out ≠ .err e) ∧
        (out = .ok () → .removeFailed p ∉ (World.setEntry { w with log := w.log ++ [.file .remove p], oracle := o } p none).log.drop w.log.length →
          (World.setEntry { w with log := w.log ++ [.file .remove p], oracle := o } p none).fs p = none) :=
      fun o out ho => ⟨⟨fun q hq => by simp [World.setEntry, hq], List.prefix_append _ _⟩, Or.inl (if_pos rfl), ho, fun _ _ => if_pos rfl⟩
    refine wp_atomicCall _ _ _ _ (fun o => ?_) (fun o => ?_) (fun o => ?_) (fun o => ?_)
    · exact gone o _ nofun
    · simp only
      rw [wp_note]
      refine ⟨⟨fun _ _ => rfl, ?_⟩, Or.inr hf, nofun, ?_⟩
      · rw [List.append_assoc]
        exact List.prefix_append _ _
      · intro _ hn
        exfalso
        apply hn
        rw [List.append_assoc, List.drop_left]
        simp
    · exact ⟨⟨fun _ _ => rfl, List.prefix_append _ _⟩, Or.inr hf, nofun, nofun⟩
    · exact gone o _ nofun

/-- Outcomes of executing a command. -/
inductive Executed (dir : Path) (draws : List (List Char)) (bytes : List Byte) (w : World) : Out Unit → World → Prop
  | early (o : Out Unit) (w' : World) (ht : Touch (fun _ => False) w w') : Executed dir draws bytes w o w'
  | used (d : List Char) (hd : d ∈ draws) (o : Out Unit) (w' : World) (habs : w.fs (tempKeyPath dir d) = none) (h : WithKeyFile dir (tempKeyPath dir d) bytes w w')
      (hgone : o ≠ .crash → .removeFailed (tempKeyPath dir d) ∉ w'.log.drop w.log.length → w'.fs (tempKeyPath dir d) = none) : Executed dir draws bytes w o w'

theorem execWithKey_spec (A : Aead) (hash : List Char → U64) (T : TextCodec) (dir : Path) (env : ExecEnv) (key : List Char) (c : CommandData) (w : World) :
    wp (execWithKey A hash T dir env key c) w (Executed dir env.draws (T.enc (trim key)) w) := by
  unfold execWithKey
  split
  · rw [wp_bind]
    refine wp_mono (newTempFile_spec dir env.draws w) ?_
    intro o w1 h1
    cases h1 with
    | failed o w1 ho ht =>
      cases o with
      | ok p => exact absurd rfl (ho p)
      | err e => exact .early _ _ ht
      | crash => exact .early _ _ ht
    | made d hd o w1 habs ho ht f hf hm hdata =>
      have k1 : WithKeyFile dir (tempKeyPath dir d) (T.enc (trim key)) w w1 :=
        ⟨ht.mono (fun q hq => Or.inl hq), Or.inr ⟨f, hf, hm, 0, by rw [hdata]; rfl⟩⟩
      rcases ho with rfl | rfl
      · simp only
        rw [wp_bind, wp_attempt, wp_bind]
        -- removing the file at the end
        have finish : ∀ (r : Except Err Unit) (w2 : World), WithKeyFile dir (tempKeyPath dir d) (T.enc (trim key)) w w2 →
            wp (do removeIgnoring (tempKeyPath dir d); Act.ofExcept r) w2 (Executed dir env.draws (T.enc (trim key)) w) := by
          intro r w2 k2
          rw [wp_bind]
          refine wp_mono (dropTempFile_spec _ w2) ?_
          rintro o w3 ⟨t3, h3, hne, hgone⟩
          have k3 : WithKeyFile dir (tempKeyPath dir d) (T.enc (trim key)) w w3 := by
            refine ⟨k2.touch.trans (t3.mono (fun q hq => Or.inl hq)), ?_⟩
            rcases h3 with h3 | h3
            · exact Or.inl h3
            · rw [h3]
              exact k2.file
          cases o with
          | err e => exact absurd rfl (hne e)
          | crash => exact .used d hd _ _ habs k3 (fun h => absurd rfl h)
          | ok u =>
            simp only
            rw [wp_ofExcept]
            have fin : ∀ o : Out Unit, Executed dir env.draws (T.enc (trim key)) w o w3 := by
              intro o
              refine .used d hd _ _ habs k3 (fun _ hn => hgone rfl (fun hm => hn ?_))
              obtain ⟨l, hl⟩ := k2.touch.log
              rw [← hl, List.length_append, ← List.drop_drop] at hm
              exact List.mem_of_mem_drop hm
            cases r <;> exact fin _
        refine wp_mono (writeAll_spec _ _ w1 f hf) ?_
        rintro o w2 ⟨t2, b, hb, hbm, _, ⟨k, hbk⟩, _⟩
        have k2 : WithKeyFile dir (tempKeyPath dir d) (T.enc (trim key)) w w2 :=
          ⟨k1.touch.trans (t2.mono (fun q hq => Or.inl hq)), Or.inr ⟨b, hb, by rw [hbm]; exact hm, k, by rw [hbk, hdata]; rfl⟩⟩
        cases o with
        | err e => exact finish _ w2 k2
        | crash => exact .used d hd _ _ habs k2 (fun h => absurd rfl h)
        | ok u =>
          simp only
          have hs : wp (sendWithKeyFile A hash T dir (tempKeyPath dir d) env c) w2 (fun _ w' => Touch (CounterFiles (counterPath dir)) w2 w') :=
            sendWithKeyFile_touch A hash T dir (tempKeyPath dir d) env c w2
          refine wp_mono hs ?_
          intro o w3 t3
          have k3 : WithKeyFile dir (tempKeyPath dir d) (T.enc (trim key)) w w3 := by
            refine ⟨k2.touch.trans (t3.mono (fun q hq => Or.inr hq)), ?_⟩
            rw [t3.fs _ (tempKey_not_counter dir d)]
            exact k2.file
          cases o with
          | err e => exact finish _ w3 k3
          | crash => exact .used d hd _ _ habs k3 (fun h => absurd rfl h)
          | ok u => exact finish _ w3 k3
      · exact .used d hd _ _ habs k1 (fun h => absurd rfl h)
  · exact .early _ _ ((touch_pre _).refl w)

/-! ## Loading and saving the list -/

theorem saveCommands_spec (C : ListCodec) (path : Path) (l : List CommandData) (w : World) : wp (saveCommands C path l) w (fun o w' => (∀ e, o ≠ .err e) ∧
    Touch (CounterFiles path) w w' ∧ (w'.fs path = w.fs path ∨ ∃ b f, C.enc l = some b ∧ w'.fs path = some f ∧ f.data = b)) := by
  unfold saveCommands
  cases he : C.enc l with
  | none => exact ⟨nofun, (touch_pre _).refl w, Or.inl rfl⟩
  | some b =>
    simp only
    rw [wp_bind, wp_attempt]
    refine wp_mono (writeAtomicWithMode_spec path b none w : wp (writeAtomic path b) w _) ?_
    intro o w' h
    have res : w'.fs path = w.fs path ∨ ∃ b' f, some b = some b' ∧ w'.fs path = some f ∧ f.data = b' := by
      rcases h.result with h1 | ⟨⟨f, hf, hd, _⟩, _⟩
      · exact Or.inl h1.1
      · exact Or.inr ⟨b, f, rfl, hf, hd⟩
    cases o with
    | crash => exact ⟨nofun, h.touch, res⟩
    | ok u => exact ⟨nofun, h.touch, res⟩
    | err e => exact ⟨nofun, h.touch, res⟩

end Ruroco
