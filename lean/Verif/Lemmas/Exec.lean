import Verif.Model.History

/-! Executing the deterministic events of a history, to construct concrete ones. -/

namespace Ruroco

/-- The state after event `e` (power losses and other processes are not deterministic and left out). -/
def exec (A : Aead) (s : Sys) (e : Ev) : Sys :=
  match e, s.srv with
  | .start env cfg senv, none =>
    match Server.create cfg senv (s.w.withEnv env []) with
    | (.ok x, w') => ⟨w', some x⟩
    | (_, w') => ⟨w', none⟩
  | .packet env dg src rd t, some srv =>
    match srv.handleDatagram A dg src rd t (s.w.withEnv env (dg.take MSG_SIZE)) with
    | (.ok (x, _), w') => ⟨w', some x⟩
    | (_, w') => ⟨w', none⟩
  | .kill, _ => ⟨s.w, none⟩
  | _, _ => s

def Out.isErr : Out α → Bool
  | .err _ => true
  | _ => false

/-- The event can happen in state `s`. -/
def Enabled (A : Aead) (dir : Path) (s : Sys) (e : Ev) : Prop :=
  match e, s.srv with
  | .start _ cfg senv, none => cfg.blDir = dir ∧ senv.order = id
  | .packet env dg src rd t, some srv => (srv.handleDatagram A dg src rd t (s.w.withEnv env (dg.take MSG_SIZE))).1.isErr = false
  | .kill, _ => True
  | _, _ => False

theorem step_exec {A : Aead} {dir : Path} {s : Sys} {e : Ev} (h : Enabled A dir s e) : Step A dir s e (exec A s e) := by
  obtain ⟨w, srv⟩ := s
  cases e with
  | start env cfg senv =>
    cases srv with
    | some x => exact h.elim
    | none =>
      obtain ⟨h1, h2⟩ := h
      have hord : ∀ m, (senv.order m).Perm m := by intro m; rw [h2]; exact List.Perm.refl m
      unfold exec
      simp only
      rcases hc : Server.create cfg senv (w.withEnv env []) with ⟨o, w'⟩
      cases o with
      | ok x => exact .started w env cfg senv x w' h1 hord hc
      | err e => exact .startFailed w env cfg senv _ w' h1 hord hc (by simp)
      | crash => exact .startFailed w env cfg senv _ w' h1 hord hc (by simp)
  | packet env dg src rd t =>
    cases srv with
    | none => exact h.elim
    | some x =>
      unfold exec
      simp only
      simp only [Enabled] at h
      rcases hc : x.handleDatagram A dg src rd t (w.withEnv env (dg.take MSG_SIZE)) with ⟨o, w'⟩
      rw [hc] at h
      cases o with
      | ok y => exact .packet w x env dg src rd t y.1 y.2 w' hc
      | err e => cases h
      | crash => exact .packetCrash w x env dg src rd t w' hc
  | kill => exact .kill w srv
  | power => exact h.elim
  | others => exact h.elim

/-- All events of the list can happen one after the other. -/
def AllEnabled (A : Aead) (dir : Path) (s : Sys) : List Ev → Prop
  | [] => True
  | e :: rest => Enabled A dir s e ∧ AllEnabled A dir (exec A s e) rest

theorem Run.cons {A : Aead} {dir : Path} {s s' s'' : Sys} {e : Ev} {evs : List Ev} (h1 : Step A dir s e s') (h2 : Run A dir s' evs s'') :
    Run A dir s (e :: evs) s'' := by
  induction h2 with
  | nil => exact .snoc (.nil s) h1
  | snoc _ hst ih => exact .snoc (evs := e :: _) ih hst

theorem run_exec {A : Aead} {dir : Path} (evs : List Ev) (s : Sys) (h : AllEnabled A dir s evs) :
    Run A dir s evs (evs.foldl (exec A) s) := by
  induction evs generalizing s with
  | nil => exact .nil s
  | cons e rest ih => exact .cons (step_exec h.1) (ih _ h.2)

end Ruroco
