import Verif.Spec.Terms.UpdateSelf
import Verif.Props.UpdateCli
import Verif.Props.WizardEffects
import Verif.Props.Started
import Verif.Props.ServerLog

/-!
# C122: an update is for the directory it installs to, not for the program that is run

/repo/README.md:239 says of `--bin-path`: "default: same as current binary"; the code takes `.local/bin` in the home directory.
-/

namespace Ruroco

open Spec (ChosenRelease Authentic UpToDate InstallDir content)

theorem cut_last {c : Char} {a b x y : List Char} (hx : c ∉ x) (hy : c ∉ y) (h : a ++ c :: x = b ++ c :: y) : a = b ∧ x = y := by
  have h' := congrArg List.reverse h
  simp only [List.reverse_append, List.reverse_cons, List.append_assoc, List.singleton_append] at h'
  obtain ⟨h1, h2⟩ := cut_at (by simpa using hx) (by simpa using hy) h'
  exact ⟨List.reverse_inj.mp h2, List.reverse_inj.mp h1⟩

/-- **C122**, proved part: if the program that is run is in the directory the update is for, it is the binary of the chosen release once an update that had something to do reports success.
Missing: the directory is not that of the program unless it is `.local/bin` in the home directory or given with `--bin-path`, see `C122_program_left_old`. -/
theorem C122_program_replaced_partial (confDir : Path) (held : Bool) (D : DirEnv) (args : UpdateArgs) (env : UpdEnv) (w : World) (d : Path) (hs : args.server = false)
    (hd : InstallDir args D.home d) (hn : ¬ UpToDate ⟨args.force, args.version, d, args.server⟩ env) (hok : (runUpdate confDir held D args env w).1 = .ok ()) :
    ∃ r f, ChosenRelease env args.version r ∧ (runUpdate confDir held D args env w).2.fs (clientIn d) = some f ∧ Authentic env r 0 "client".toList f.data := by
  have huniq : ∀ d', InstallDir args D.home d' → d' = d := by
    intro d' hd'
    unfold InstallDir at hd hd'
    cases hb : args.binPath with
    | some p => rw [hb] at hd hd'; exact hd'.trans hd.symm
    | none =>
      rw [hb] at hd hd'
      simp only [hs, Bool.false_eq_true, if_false] at hd hd'
      obtain ⟨h1, e1, rfl⟩ := hd
      obtain ⟨h2, e2, rfl⟩ := hd'
      rw [e1] at e2
      cases e2
      rfl
  rcases hr : runUpdate confDir held D args env w with ⟨o, w'⟩
  rw [hr] at hok
  cases hok
  unfold runUpdate at hr
  obtain ⟨_, w1, _, hr⟩ := act_bind_ok hr
  obtain ⟨u, w2, hu, hr⟩ := act_bind_ok hr
  have hg := gives_updater (D := D) (args := args) w1
  unfold wp at hg
  rw [hu] at hg
  obtain ⟨hi, _⟩ := hg u rfl
  have hfields : u.force = args.force ∧ u.version = args.version ∧ u.server = args.server := by
    unfold Updater.create at hu
    obtain ⟨p, w3, _, hp⟩ := act_bind_ok hu
    cases hp
    exact ⟨rfl, rfl, rfl⟩
  obtain ⟨hf, hv, hsv⟩ := hfields
  have hdir := huniq _ hi
  obtain ⟨force, version, bp, server⟩ := u
  simp only at hf hv hsv hdir
  subst hf hv hsv hdir
  obtain ⟨r, hc, _, hin⟩ := C43_success _ env w2 (by rw [hr]) hn
  obtain ⟨f, h1, h2, _⟩ := hin 0 ⟨"client".toList, "ruroco-client".toList, 0o755, none⟩ (by unfold Updater.targets; rw [if_neg (by simp [hs])]; rfl)
  rw [hr] at h1
  exact ⟨r, f, hc, h1, h2⟩

/-- **C122**: a program in any other directory is left as it was, whatever the update does and reports. -/
theorem C122_other_left (confDir : Path) (held : Bool) (D : DirEnv) (args : UpdateArgs) (env : UpdEnv) (w : World) (d : Path) (hdraws : ∀ x ∈ D.draws, '/' ∉ x)
    (hd : ¬ InstallDir args D.home d) : (runUpdate confDir held D args env w).2.fs (clientIn d) = w.fs (clientIn d) := by
  refine C74_only_there confDir held D args env w _ ?_
  have hs : '/' ∉ "ruroco-client".toList := by decide +kernel
  have cut : ∀ {b y : List Char}, '/' ∉ y → clientIn d = b ++ '/' :: y → d = b ∧ "ruroco-client".toList = y := fun hy h => cut_last hs hy h
  rintro (h | ⟨d', hd', ⟨⟨x, hx, h⟩, _⟩ | ⟨b, hb, h⟩⟩)
  · exact absurd (cut (y := "client.lock".toList) (by decide +kernel) h).2 (by decide +kernel)
  · have h' : clientIn d = d' ++ '/' :: (".tmp".toList ++ x) := by rw [h, List.append_assoc]; rfl
    have := (cut (by intro hm; rcases List.mem_append.mp hm with hm | hm; exact absurd hm (by decide +kernel); exact hdraws x hx hm) h').2
    exact absurd (congrArg List.head? this) (by show some 'r' ≠ some '.'; decide)
  · have hbin : '/' ∉ b.1.toList := by
      unfold Spec.binaries at hb
      split at hb <;> (rcases List.mem_cons.mp hb with rfl | hb; decide +kernel; rcases List.mem_cons.mp hb with rfl | hb; decide +kernel; cases hb)
    rcases h with h | h | ⟨n, h⟩
    · have h' : clientIn d = d' ++ '/' :: b.1.toList := by rw [h, List.append_assoc]; rfl
      exact hd ((cut hbin h').1 ▸ hd')
    · have h' : clientIn d = d' ++ '/' :: (b.1.toList ++ ".old".toList) := by rw [h, List.append_assoc, List.append_assoc]; rfl
      have hne : '/' ∉ b.1.toList ++ ".old".toList := by
        intro hm
        rcases List.mem_append.mp hm with hm | hm
        · exact hbin hm
        · exact absurd hm (by decide +kernel)
      exact hd ((cut hne h').1 ▸ hd')
    · have h' : clientIn d = d' ++ '/' :: (b.1.toList ++ ('.' :: (toString n.toNat).toList ++ ".tmp".toList)) := by rw [h, tmpPath, List.append_assoc, List.append_assoc]; rfl
      have hdig : '/' ∉ (toString n.toNat).toList := by
        rw [show (toString n.toNat).toList = showRadix 10 n.toNat by simp [toString, Nat.repr, showRadix]]
        exact show10_notMem _ (by decide +kernel)
      have hne : '/' ∉ b.1.toList ++ ('.' :: (toString n.toNat).toList ++ ".tmp".toList) := by
        intro hm
        rcases List.mem_append.mp hm with hm | hm
        · exact hbin hm
        · rcases List.mem_append.mp hm with hm | hm
          · rcases List.mem_cons.mp hm with hm | hm
            · exact absurd hm (by decide)
            · exact hdig hm
          · exact absurd hm (by decide +kernel)
      exact hd ((cut hne h').1 ▸ hd')

/-! ## A client installed for all users -/

/-- The home directory is `/h`; every directory exists. -/
def exHomeDirs : DirEnv := { exists_ := fun _ => true, isDir := fun _ => true, home := some "/h".toList, draws := ["abc".toList] }

/-- The client is `/u/ruroco-client`. -/
def exSelfWorld : World :=
  { fs := fun p => if p = clientIn "/u".toList then some ⟨[1, 2, 3], 0o755, true, .creator⟩ else none
    pend := fun _ => [], clock := List.replicate 9 (some 5), oracle := [], umask := 0o022, cur := [], log := [] }

theorem exSelf_chosen : ChosenRelease exUpdEnv none ⟨"v0.6.0".toList, exAssets "v0.6.0", false⟩ :=
  ⟨_, rfl, [⟨"v0.7.0".toList, [], true⟩], [⟨"v0.5.0".toList, [], false⟩], rfl, rfl, by simp⟩

/-- The directory of the update is `/h/.local/bin`. -/
theorem exHome_dir {d : Path} (h : InstallDir plainUpdate exHomeDirs.home d) : d = "/h/.local/bin".toList := by
  obtain ⟨h', e, rfl⟩ := h
  cases e
  decide +kernel

/-- **C122 is false as stated**: the update reports success, the latest release is another than the running one, and the program that was run is still the old one: the new one is in
`.local/bin` of the home directory. -/
theorem C122_program_left_old : ∃ (confDir : Path) (D : DirEnv) (env : UpdEnv) (w : World) (d : Path) (r : Release) (f : File),
    (runUpdate confDir false D plainUpdate env w).1 = .ok () ∧ ChosenRelease env none r ∧ r.tag ≠ env.current ∧ w.fs (clientIn d) = some f ∧
    (runUpdate confDir false D plainUpdate env w).2.fs (clientIn d) = some f ∧ ∀ i, ¬ Authentic env r i "client".toList f.data := by
  refine ⟨"/c".toList, exHomeDirs, exUpdEnv, exSelfWorld, "/u".toList, _, ⟨[1, 2, 3], 0o755, true, .creator⟩, by decide +kernel, exSelf_chosen, by decide +kernel, rfl, ?_, ?_⟩
  · rw [C122_other_left]
    · rfl
    · intro x hx
      cases List.mem_singleton.mp hx
      decide
    · intro h
      exact absurd (exHome_dir h) (by decide +kernel)
  · rintro i ⟨_, _, _, _, _, ⟨h, _⟩, _⟩
    have h' : (some (if (2 * i) % 2 = 0 then [7, 7, 7] else [1]) : Option (List Byte)) = some [1, 2, 3] := h
    rw [if_pos (by omega)] at h'
    revert h'
    decide

/-- The hypotheses of `C122_program_replaced_partial`: in the same setting the client in `/h/.local/bin` is replaced. -/
example : InstallDir plainUpdate exHomeDirs.home "/h/.local/bin".toList ∧ ¬ UpToDate ⟨false, none, "/h/.local/bin".toList, false⟩ exUpdEnv ∧
    (runUpdate "/c".toList false exHomeDirs plainUpdate exUpdEnv exSelfWorld).1 = .ok () ∧
    content (runUpdate "/c".toList false exHomeDirs plainUpdate exUpdEnv exSelfWorld).2 (clientIn "/h/.local/bin".toList) = some [7, 7, 7] := by
  refine ⟨⟨_, rfl, by decide +kernel⟩, ?_, by decide +kernel, by decide +kernel⟩
  rcases hp : Updater.plan ⟨false, none, "/h/.local/bin".toList, false⟩ exUpdEnv with e | (_ | vs)
  · exact absurd hp (by rw [show Updater.plan ⟨false, none, "/h/.local/bin".toList, false⟩ exUpdEnv = .ok (some _) from rfl]; nofun)
  · exact absurd hp (by rw [show Updater.plan ⟨false, none, "/h/.local/bin".toList, false⟩ exUpdEnv = .ok (some _) from rfl]; nofun)
  · obtain ⟨_, _, hn, _⟩ := plan_some _ exUpdEnv vs hp
    exact hn

end Ruroco
