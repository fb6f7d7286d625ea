import Verif.Props.Exec

/-!
# C30: permissions of the commander socket; C31: one commander at a time
-/

namespace Ruroco

/-! ## C30 -/

/-- The file at `p` does not let group or others write, i.e. connect. -/
def Closed (w : World) (p : Path) : Prop := ∀ f, w.fs p = some f → f.mode &&& 0o022 = 0

/-- Everything C30 and C31 say about one start-up. `s`: socket path, `lock`: lock file. -/
structure Started (held : Bool) (s : Path) (owner : Owner) (w : World) (o : Out Unit) (w' : World) : Prop where
  closed : w'.fs s = w.fs s ∨ Closed w' s
  umask : o ≠ .crash → w'.umask = w.umask
  mode : o = .ok () → ∃ f, w'.fs s = some f ∧ f.mode = 0o204 ∧ f.owner = owner
  refused : held = true → w'.fs s = w.fs s ∧ o ≠ .ok ()

theorem setUmask_wp (m : Nat) (w : World) (Q : Out Nat → World → Prop) : wp (setUmask m) w Q ↔ Q (.ok w.umask) { w with umask := m } := Iff.rfl

/-- Same entry at `s`, same umask. -/
def SameAt (s : Path) (w w' : World) : Prop := w'.fs s = w.fs s ∧ w'.umask = w.umask

theorem sameAt_pre (s : Path) : Pre (SameAt s) where
  refl _ := ⟨rfl, rfl⟩
  trans h h' := ⟨h'.1.trans h.1, h'.2.trans h.2⟩

theorem sameAt_acquireLock {s lock : Path} (hne : s ≠ lock) (held : Bool) : Always (SameAt s) (acquireLock lock held) := by
  unfold acquireLock openCreate
  refine Always.bind (sameAt_pre s) (Always.atomicCall (fun w o => ⟨rfl, rfl⟩) ?_) (fun _ => Always.bind (sameAt_pre s)
    (Always.atomicCall (fun w o => ⟨rfl, rfl⟩) (fun w o => ⟨rfl, rfl⟩)) (fun _ => ?_))
  · intro w o
    simp only
    split
    · exact ⟨rfl, rfl⟩
    · exact ⟨if_neg hne, rfl⟩
  · cases held
    · exact Always.pure (sameAt_pre s) _
    · exact Always.throw (sameAt_pre s) _

theorem acquireLock_held (lock : Path) (w : World) : wp (acquireLock lock true) w (fun o _ => o ≠ .ok ()) := by
  unfold acquireLock openCreate
  rw [wp_bind]
  refine wp_atomicCall _ _ _ _ (fun o => ?_) (fun o => nofun) (fun o => nofun) (fun o => nofun)
  simp only
  rw [wp_bind]
  exact wp_atomicCall _ _ _ _ (fun o => nofun) (fun o => nofun) (fun o => nofun) (fun o => nofun)

theorem bind_closed (s : Path) (w : World) (hu : w.umask = 0o077) (hc : Closed w s) :
    wp (bindUnix s) w (fun o w' => Closed w' s ∧ w'.umask = w.umask ∧ (o = .ok () → ∃ f, w'.fs s = some f ∧ f.owner = .creator)) := by
  unfold bindUnix
  rw [wp_bind, wp_peek]
  cases hf : w.fs s with
  | some f => exact ⟨hc, rfl, nofun⟩
  | none =>
    simp only
    have hnew : ∀ o : List Choice, Closed (World.setEntry { w with log := w.log ++ [.file .bind s], oracle := o } s
        (some ⟨[], 0o777 - (0o777 &&& w.umask), false, .creator⟩)) s := by
      intro o f hf
      simp only [World.setEntry, if_pos] at hf
      cases hf
      rw [hu]
      decide
    refine wp_atomicCall _ _ _ _ (fun o => ⟨hnew o, rfl, fun _ => ⟨_, if_pos rfl, rfl⟩⟩) (fun o => ⟨?_, rfl, nofun⟩) (fun o => ⟨?_, rfl, nofun⟩)
      (fun o => ⟨hnew o, rfl, nofun⟩)
    · exact hc
    · exact hc

theorem started (c : Commander) (dir : Path) (hs : c.socketPath = dir ++ "ruroco.socket".toList) (hdir : ∃ d, dir = d ++ ['/'])
    (held names : Bool) (w : World) : wp (c.createListener held names) w (Started held c.socketPath (Owner.creator.change (trim c.socketUser) (trim c.socketGroup)) w) := by
  have hsame : ∀ (o : Out Unit) (w' : World), o ≠ .ok () → SameAt c.socketPath w w' → Started held c.socketPath (Owner.creator.change (trim c.socketUser) (trim c.socketGroup)) w o w' := by
    intro o w' ho h
    exact ⟨Or.inl h.1, fun _ => h.2, fun h => absurd h ho, fun _ => ⟨h.1, ho⟩⟩
  have hparent : parent c.socketPath = some dir := by
    obtain ⟨d, hd⟩ := hdir
    rw [hs]
    unfold parent
    have hl : 2 ≤ (dir ++ "ruroco.socket".toList).length := by simp
    rw [if_neg (by rintro (h | h) <;> rw [h] at hl <;> simp at hl), hd]
    unfold dirname
    simp
  have hlock : c.socketPath ≠ dir ++ "commander.lock".toList := by
    rw [hs]
    intro h
    have := List.append_cancel_left h
    revert this
    decide
  unfold Commander.createListener
  rw [hparent]
  simp only
  rw [wp_bind]
  refine wp_mono (Q := fun _ w' => SameAt c.socketPath w w') (Always.atomicCall (R := SameAt c.socketPath) (fun w o => ⟨rfl, rfl⟩) (fun w o => ⟨rfl, rfl⟩) w) ?_
  intro o w1 h1
  cases o with
  | err e => exact hsame _ _ nofun h1
  | crash => exact hsame _ _ nofun h1
  | ok u =>
    simp only
    rw [wp_bind]
    have hheld : wp (acquireLock (dir ++ "commander.lock".toList) held) w1 (fun o w' => SameAt c.socketPath w w' ∧ (held = true → o ≠ .ok ())) := by
      refine ⟨(sameAt_pre _).trans h1 (sameAt_acquireLock hlock held w1), ?_⟩
      rintro rfl
      exact acquireLock_held _ w1
    refine wp_mono hheld ?_
    rintro o w2 ⟨h2, hne⟩
    cases o with
    | err e => exact hsame _ _ nofun h2
    | crash => exact hsame _ _ nofun h2
    | ok u =>
      have hnh : ¬ held = true := fun h => hne h rfl
      simp only
      rw [wp_bind]
      refine wp_mono (removeIgnoring_spec c.socketPath w2) ?_
      rintro o w3 ⟨h3, _, _, hu3, hne3⟩
      have h3 := h3 c.socketPath
      have hu3 : w3.umask = w.umask := hu3.trans h2.2
      have h3 : w3.fs c.socketPath = w.fs c.socketPath ∨ w3.fs c.socketPath = none := by
        rcases h3 with h | ⟨_, h⟩
        · exact Or.inl (h.trans h2.1)
        · exact Or.inr h
      have hclosed : ∀ w' : World, w'.fs c.socketPath = w3.fs c.socketPath → w'.fs c.socketPath = w.fs c.socketPath ∨ Closed w' c.socketPath := by
        intro w' hw
        rcases h3 with h | h
        · exact Or.inl (hw.trans h)
        · refine Or.inr ?_
          intro f hf
          rw [hw, h] at hf
          cases hf
      cases o with
      | err e => exact absurd rfl (hne3 e)
      | crash => exact ⟨hclosed _ rfl, nofun, nofun, fun h => absurd h hnh⟩
      | ok u =>
        simp only
        rw [wp_bind, setUmask_wp]
        simp only
        rw [wp_bind, wp_attempt]
        cases hf : w3.fs c.socketPath with
        | some f =>
          -- the old socket is still there: binding fails
          have hthrow : bindUnix c.socketPath { w3 with umask := 0o077 } = (.err .io, { w3 with umask := 0o077 }) := by
            unfold bindUnix
            show Act.bind (peek c.socketPath) _ _ = _
            simp only [Act.bind, peek, hf]
            rfl
          unfold wp
          rw [hthrow]
          refine ⟨hclosed _ rfl, fun _ => hu3, nofun, fun h => absurd h hnh⟩
        | none =>
          refine wp_mono (bind_closed c.socketPath { w3 with umask := 0o077 } rfl (fun f hf' => by rw [show _ = _ from hf] at hf'; cases hf')) ?_
          rintro o w4 ⟨h4, hu4, hok4⟩
          cases o with
          | crash => exact ⟨Or.inr h4, nofun, nofun, fun h => absurd h hnh⟩
          | err e =>
            simp only
            rw [wp_bind, setUmask_wp]
            exact ⟨Or.inr h4, fun _ => hu3, nofun, fun h => absurd h hnh⟩
          | ok u =>
            obtain ⟨f, hf4, how⟩ := hok4 rfl
            simp only
            rw [wp_bind, setUmask_wp]
            simp only
            rw [wp_bind]
            show wp (do chmod c.socketPath 0o204; changeOwnership c.socketPath (trim c.socketUser) (trim c.socketGroup) names) { w4 with umask := w3.umask } _
            rw [wp_bind]
            unfold chmod
            rw [wp_bind, wp_peek]
            simp only [hf4]
            have hset : ∀ l o, Closed (World.setFile { w4 with umask := w3.umask, log := l, oracle := o } c.socketPath (some { f with mode := 0o204 })) c.socketPath := by
              intro l o g hg
              simp only [World.setFile, if_pos] at hg
              cases hg
              show 0o204 &&& 0o022 = 0
              decide
            refine wp_atomicCall _ _ _ _ ?_ ?_ ?_ ?_
            · intro o
              simp only
              unfold changeOwnership
              cases names with
              | false => exact ⟨Or.inr (hset _ _), fun _ => hu3, nofun, fun h => absurd h hnh⟩
              | true =>
                show wp (chown c.socketPath (trim c.socketUser) (trim c.socketGroup)) _ _
                unfold chown
                rw [wp_bind, wp_peek]
                simp only [World.setFile, if_pos]
                have hown : ∀ w' : World, Closed (World.setFile w' c.socketPath 
                    (some { f with mode := 0o204, owner := f.owner.change (trim c.socketUser) (trim c.socketGroup) })) c.socketPath := by
                  intro w' g hg
                  simp only [World.setFile, if_pos] at hg
                  cases hg
                  show 0o204 &&& 0o022 = 0
                  decide
                refine wp_atomicCall _ _ _ _ ?_ ?_ ?_ ?_
                · intro o; exact ⟨Or.inr (hown _), fun _ => hu3, fun _ => ⟨_, if_pos rfl, rfl, by rw [how]⟩, fun h => absurd h hnh⟩
                · intro o; exact ⟨Or.inr (hset _ _), fun _ => hu3, nofun, fun h => absurd h hnh⟩
                · intro o; exact ⟨Or.inr (hset _ _), fun _ => hu3, nofun, fun h => absurd h hnh⟩
                · intro o; exact ⟨Or.inr (hown _), fun _ => hu3, nofun, fun h => absurd h hnh⟩
            · intro o; exact ⟨Or.inr h4, fun _ => hu3, nofun, fun h => absurd h hnh⟩
            · intro o; exact ⟨Or.inr h4, fun _ => hu3, nofun, fun h => absurd h hnh⟩
            · intro o; exact ⟨Or.inr (hset _ _), fun _ => hu3, nofun, fun h => absurd h hnh⟩

/-- **C30.** Start-up of the commander with socket `dir/ruroco.socket`, at every step at which it succeeds, fails or is killed (the outcomes of the model
include being killed before and after every single call): the socket file is the one that was there before, untouched, or gives no write (connect)
permission to group or others; a completed start-up leaves mode 0204 and the configured user and group (an empty name: that of the commander) as owner; unless killed, the process has its original umask again. -/
theorem C30_socket_never_open (c : Commander) (dir : Path) (hs : c.socketPath = dir ++ "ruroco.socket".toList) (hdir : ∃ d, dir = d ++ ['/'])
    (held names : Bool) (w w' : World) (o : Out Unit) (h : c.createListener held names w = (o, w')) :
    (w'.fs c.socketPath = w.fs c.socketPath ∨ ∀ f, w'.fs c.socketPath = some f → f.mode &&& 0o022 = 0) ∧
    (o = .ok () → ∃ f, w'.fs c.socketPath = some f ∧ f.mode = 0o204 ∧
      f.owner.user = trim c.socketUser ∧ f.owner.group = trim c.socketGroup) ∧ (o ≠ .crash → w'.umask = w.umask) := by
  have := started c dir hs hdir held names w
  unfold wp at this
  rw [h] at this
  refine ⟨this.closed, fun ho => ?_, this.umask⟩
  obtain ⟨f, h1, h2, h3⟩ := this.mode ho
  refine ⟨f, h1, h2, ?_, ?_⟩
  · rw [h3]
    simp only [Owner.change, Owner.creator]
    split
    · rename_i h; exact h.symm
    · rfl
  · rw [h3]
    simp only [Owner.change, Owner.creator]
    split
    · rename_i h; exact h.symm
    · rfl

/-- **C31 (socket).** A commander that does not get the lock fails to start and leaves the socket of the running one alone. -/
theorem C31_second_commander_leaves_socket (c : Commander) (dir : Path) (hs : c.socketPath = dir ++ "ruroco.socket".toList)
    (hdir : ∃ d, dir = d ++ ['/']) (names : Bool) (w w' : World) (o : Out Unit) (h : c.createListener true names w = (o, w')) :
    w'.fs c.socketPath = w.fs c.socketPath ∧ o ≠ .ok () := by
  have := started c dir hs hdir true names w
  unfold wp at this
  rw [h] at this
  exact this.refused rfl

/-- A commander whose socket is `/run/ruroco/ruroco.socket`. -/
def exListen : Commander := { exCommander with socketPath := "/run/ruroco/ruroco.socket".toList }

/-- A stale, world-writable socket with umask 0 is replaced by one with mode 0204; with the lock held elsewhere it stays. -/
example :
    let w : World := { exCmdrWorld [] with umask := 0, fs := fun p => if p = "/run/ruroco/ruroco.socket".toList then some ⟨[], 0o777, false, .creator⟩ else none }
    exListen.socketPath = "/run/ruroco/".toList ++ "ruroco.socket".toList ∧
    ((exListen.createListener false true w).1 = .ok () ∧
      ((exListen.createListener false true w).2.fs exListen.socketPath).map (·.mode) = some 0o204) ∧
    ((exListen.createListener true true w).1 = .err .locked ∧
      ((exListen.createListener true true w).2.fs exListen.socketPath).map (·.mode) = some 0o777) := by
  decide +kernel

end Ruroco
