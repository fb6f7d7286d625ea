import Verif.Model.Gen
import Verif.Spec.Setup
import Verif.Props.Crypto
import Verif.Props.Setup
import Verif.Lemmas.ClientOk

/-!
# C115: `gen`

`gen` prints one key, whole and nothing else, if what it prints is taken. It does not notice if it is not: then the file it is sent to is empty or holds a part of the key, and the exit status is that of success.
Such a file is of no use to anybody: it is never taken for a key.
-/

namespace Ruroco

open Spec (KeyText)

theorem b64Encode_length (bs : List Byte) : (b64Encode bs).length = (bs.length + 2) / 3 * 4 := by
  induction bs using b64Encode.induct with
  | case1 => simp [b64Encode]
  | case2 a => simp [b64Encode]
  | case3 a b => simp [b64Encode]
  | case4 a b c rest ih => simp [b64Encode, ih]; omega

theorem b64Encode_no_newline (bs : List Byte) : '\n' ∉ b64Encode bs := by
  intro h
  have := b64Encode_no_ws bs _ h
  exact absurd this (by decide)

theorem genKey_short {key id : List Byte} (hk : key.length = 32) (hi : id.length = 8) : (b64Encode (id ++ key)).length = 56 := by
  rw [b64Encode_length]; simp [hk, hi]

/-- A run of `gen` that gets as far as printing. -/
theorem runGen_ok {dir : Path} {held : Bool} {e : GenEnv} {w : World} (h : (runGen dir held e w).1.1 = .ok ()) :
    ∃ key id, e.rndKey = some key ∧ e.rndId = some id ∧ (key.length = 32 → id.length = 8 → (runGen dir held e w).2 = e.sink.part (b64Encode (id ++ key))) := by
  unfold runGen at h ⊢
  generalize acquireLock (dir ++ "/client.lock".toList) held w = r at h ⊢
  obtain ⟨o, w'⟩ := r
  cases o with
  | crash => cases h
  | err x => cases h
  | ok u =>
    cases hk : e.rndKey with
    | none => simp [hk, genKey] at h
    | some key =>
      cases hi : e.rndId with
      | none => simp [hk, hi, genKey] at h
      | some id =>
        refine ⟨key, id, rfl, rfl, fun h1 h2 => ?_⟩
        have hp : (Stdout.mk [] []).print (b64Encode (id ++ key)) e.sink = .ok ⟨b64Encode (id ++ key), []⟩ := by
          unfold Stdout.print
          rw [if_pos ⟨b64Encode_no_newline _, by simp [genKey_short h1 h2]⟩]
          simp
        simp [genKey, hp, Stdout.atExit]

/-- **C115a.** If `gen` succeeds and standard output takes what is written, what it has received is a key text made from the bytes drawn, and nothing else: 56 characters, without line break. The file can be used as it is on both sides. -/
theorem C115_whole_key_partial {dir : Path} {held : Bool} {key id : List Byte} (hk : key.length = 32) (hi : id.length = 8) {n : Takes} (hn : ∀ k, n = some k → 56 ≤ k) {w : World}
    (h : (runGen dir held ⟨some key, some id, n⟩ w).1.1 = .ok ()) :
    KeyText key id (runGen dir held ⟨some key, some id, n⟩ w).2 ∧ (runGen dir held ⟨some key, some id, n⟩ w).2.length = 56 ∧
      CryptoHandler.create (runGen dir held ⟨some key, some id, n⟩ w).2 = .ok { key, id } := by
  obtain ⟨k, i, h1, h2, h3⟩ := runGen_ok h
  cases h1; cases h2
  have ht : (runGen dir held ⟨some key, some id, n⟩ w).2 = b64Encode (id ++ key) := by
    rw [h3 hk hi]
    cases n with
    | none => rfl
    | some k => exact List.take_of_length_le (by rw [genKey_short hk hi]; exact hn k rfl)
  rw [ht]
  refine ⟨⟨_, [], [], rfl, nofun, nofun, by simp⟩, genKey_short hk hi, ?_⟩
  obtain ⟨t, h4, h5⟩ := C04_key_text_round_trip key id hk hi [] [] nofun nofun
  cases h4
  simpa using h5

/-- **C115b.** Whatever happens, standard output receives the beginning of the key text, and nothing if `gen` fails. -/
theorem C115_only_key {dir : Path} {held : Bool} {key id : List Byte} (hk : key.length = 32) (hi : id.length = 8) (n : Takes) (w : World) :
    (runGen dir held ⟨some key, some id, n⟩ w).2 <+: b64Encode (id ++ key) ∧
      ((runGen dir held ⟨some key, some id, n⟩ w).1.1 ≠ .ok () → (runGen dir held ⟨some key, some id, n⟩ w).2 = []) := by
  by_cases h : (runGen dir held ⟨some key, some id, n⟩ w).1.1 = .ok ()
  · refine ⟨?_, fun hn => absurd h hn⟩
    obtain ⟨k, i, h1, h2, h3⟩ := runGen_ok h
    cases h1; cases h2
    rw [h3 hk hi]
    cases n with
    | none => exact List.prefix_refl _
    | some k => exact List.take_prefix _ _
  · have : (runGen dir held ⟨some key, some id, n⟩ w).2 = [] := by
      unfold runGen at h ⊢
      generalize acquireLock (dir ++ "/client.lock".toList) held w = r at h ⊢
      obtain ⟨o, w'⟩ := r
      cases o with
      | crash => rfl
      | err x => rfl
      | ok u =>
        simp only [genKey] at h ⊢
        cases hp : (Stdout.mk [] []).print (b64Encode (id ++ key)) n with
        | error u => rfl
        | ok s => simp [hp] at h
    exact ⟨this ▸ List.nil_prefix, fun _ => this⟩

/-- **C115c.** A part of a key text is never taken for a key, also with white space around it: the client refuses to send with such a file, and the server to start with it. -/
theorem C115_part_refused {key id : List Byte} (hk : key.length = 32) (hi : id.length = 8) {part before after : List Char} (hp : part <+: b64Encode (id ++ key)) (hne : part ≠ b64Encode (id ++ key))
    (hb : ∀ c ∈ before, isWs c = true) (ha : ∀ c ∈ after, isWs c = true) (h : CryptoHandler) : CryptoHandler.create (before ++ part ++ after) ≠ .ok h := by
  intro hc
  obtain ⟨h1, h2, h3⟩ := (create_ok_iff _ _).1 hc
  rw [trim_ws _ _ _ hb (fun c hm => b64Encode_no_ws _ c (hp.subset hm)) ha] at h1
  refine hne (hp.eq_of_length ?_)
  rw [genKey_short hk hi, h1, genKey_short h3 h2]

/-- **C115d, what does not hold.** `gen` can succeed although nothing, or only a part of the key, was taken: the documented `ruroco-client gen > user.key` on a full disk gives an empty file and exit status 0. -/
theorem C115_unnoticed {dir : Path} {key id : List Byte} (hk : key.length = 32) (hi : id.length = 8) {w : World} (hw : AllOk w) (n : Nat) :
    (runGen dir false ⟨some key, some id, some n⟩ w).1.1 = .ok () ∧ (runGen dir false ⟨some key, some id, some n⟩ w).2 = (b64Encode (id ++ key)).take n := by
  have h : (runGen dir false ⟨some key, some id, some n⟩ w).1.1 = .ok () := by
    have hl : ∃ w', acquireLock (dir ++ "/client.lock".toList) false w = (.ok (), w') := by
      have : wp (acquireLock (dir ++ "/client.lock".toList) false) w (fun o _ => o = .ok ()) := by
        unfold acquireLock openCreate
        rw [wp_bind]
        refine wp_atomicCall_ok _ _ _ hw _ (fun o1 ho1 => ?_)
        simp only
        rw [wp_bind]
        split
        · exact wp_atomicCall_ok _ _ _ (by exact ho1) _ (fun _ _ => rfl)
        · exact wp_atomicCall_ok _ _ _ (by exact ho1) _ (fun _ _ => rfl)
      exact ⟨_, Prod.ext this rfl⟩
    obtain ⟨w', hl⟩ := hl
    unfold runGen
    rw [hl]
    have hp : (Stdout.mk [] []).print (b64Encode (id ++ key)) (some n) = .ok ⟨b64Encode (id ++ key), []⟩ := by
      unfold Stdout.print
      rw [if_pos ⟨b64Encode_no_newline _, by simp [genKey_short hk hi]⟩]
      simp
    simp [genKey, hp]
  obtain ⟨k, i, h1, h2, h3⟩ := runGen_ok h
  cases h1; cases h2
  exact ⟨h, h3 hk hi⟩

/-- **C115e, exactly.** After a success the key is there whole exactly if standard output took all of it. -/
theorem C115_whole_iff {dir : Path} {held : Bool} {key id : List Byte} (hk : key.length = 32) (hi : id.length = 8) (n : Takes) {w : World}
    (h : (runGen dir held ⟨some key, some id, n⟩ w).1.1 = .ok ()) :
    KeyText key id (runGen dir held ⟨some key, some id, n⟩ w).2 ↔ ∀ k, n = some k → 56 ≤ k := by
  refine ⟨fun ht k hn => ?_, fun hn => (C115_whole_key_partial hk hi hn h).1⟩
  subst hn
  obtain ⟨_, _, h1, h2, h3⟩ := runGen_ok h
  cases h1; cases h2
  rw [h3 hk hi] at ht
  obtain ⟨printed, before, after, h4, -, -, h5⟩ := ht
  cases h4
  have := congrArg List.length h5
  simp only [Takes.part, List.length_take, List.length_append, genKey_short hk hi] at this
  omega

/-- The run of the client that the other claims are about: the same result and the same effects on files, if the random number generator works. -/
theorem C115_same_run (A : Aead) (hash : List Char → U64) (dir : Path) (e : ClientEnv) {key id : List Byte} (hk : key.length = 32) (hi : id.length = 8) (n : Takes) (w : World) :
    (runGen dir e.held ⟨some key, some id, n⟩ w).1 = runClient A hash dir e .gen w := by
  show _ = acquireLock (dir ++ "/client.lock".toList) e.held w
  unfold runGen
  generalize acquireLock (dir ++ "/client.lock".toList) e.held w = r
  obtain ⟨o, w'⟩ := r
  cases o with
  | crash => rfl
  | err x => rfl
  | ok u =>
    have hp : (Stdout.mk [] []).print (b64Encode (id ++ key)) n = .ok ⟨b64Encode (id ++ key), []⟩ := by
      unfold Stdout.print
      rw [if_pos ⟨b64Encode_no_newline _, by simp [genKey_short hk hi]⟩]
      simp
    simp [genKey, hp]

/-- Non-vacuity: with all calls succeeding `gen` succeeds; on a full disk too, and nothing has been written. -/
example : (runGen "/c".toList false ⟨some (List.replicate 32 7), some [1, 2, 3, 4, 5, 6, 7, 8], none⟩ exEmpty).1.1 = .ok () ∧
    (runGen "/c".toList false ⟨some (List.replicate 32 7), some [1, 2, 3, 4, 5, 6, 7, 8], none⟩ exEmpty).2 = "AQIDBAUGBwgHBwcHBwcHBwcHBwcHBwcHBwcHBwcHBwcHBwcHBwcHBw==".toList ∧
    (runGen "/c".toList false ⟨some (List.replicate 32 7), some [1, 2, 3, 4, 5, 6, 7, 8], some 0⟩ exEmpty).1.1 = .ok () ∧
    (runGen "/c".toList false ⟨some (List.replicate 32 7), some [1, 2, 3, 4, 5, 6, 7, 8], some 0⟩ exEmpty).2 = [] := by decide +kernel

/-- Non-vacuity of `C115_part_refused`: the first ten characters. -/
example : "AQIDBAUGBw".toList <+: b64Encode ([1, 2, 3, 4, 5, 6, 7, 8] ++ List.replicate 32 7) ∧ "AQIDBAUGBw".toList ≠ b64Encode ([1, 2, 3, 4, 5, 6, 7, 8] ++ List.replicate 32 7) := by decide +kernel

end Ruroco
