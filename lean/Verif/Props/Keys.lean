import Verif.Props.History
import Verif.Spec.Keys

/-!
# C24: loading the keys
-/

namespace Ruroco

open Spec (IsKeyFile keyOf)

theorem extension_key_iff (name : List Char) : extension name = some "key".toList ↔ ∃ stem, stem ≠ [] ∧ name = stem ++ ".key".toList := by
  constructor
  · intro h
    unfold extension at h
    simp only at h
    split at h
    · cases h
    · rename_i hlen
      have hext : (name.reverse.takeWhile (· ≠ '.')).reverse = "key".toList := by simpa using h
      have htw : name.reverse.takeWhile (· ≠ '.') = "key".toList.reverse := by rw [← hext, List.reverse_reverse]
      have hsplit := List.takeWhile_append_dropWhile (p := (· ≠ '.')) (l := name.reverse)
      rw [htw] at hsplit
      have hname : name = (name.reverse.dropWhile (· ≠ '.')).reverse ++ "key".toList := by
        have := congrArg List.reverse hsplit
        simpa using this.symm
      rcases hd : name.reverse.dropWhile (· ≠ '.') with _ | ⟨c, r⟩
      · rw [hd] at hname
        rw [hext, hname] at hlen
        simp at hlen
      · have hc : c = '.' := by
          have := List.head_dropWhile_not (p := (· ≠ '.')) (l := name.reverse) (by rw [hd]; simp)
          simp only [hd, List.head_cons] at this
          simpa using this
        rw [hd] at hname
        subst hc
        refine ⟨r.reverse, ?_, ?_⟩
        · intro hr
          rw [hext, hname] at hlen
          simp at hr
          simp [hr] at hlen
        · rw [hname]; simp
  · rintro ⟨stem, hne, rfl⟩
    have htw : ((stem ++ ".key".toList).reverse.takeWhile (· ≠ '.')).reverse = "key".toList := by
      simp
    unfold extension
    simp only [htw]
    rw [if_neg]
    have : 0 < stem.length := List.length_pos_iff.2 hne
    simp; omega

theorem keyFile_iff (e : DirEntry) : (e.isFile && extension e.name == some "key".toList) = true ↔ IsKeyFile e := by
  rw [Bool.and_eq_true, beq_iff_eq, extension_key_iff]; rfl

/-- Handlers filed under their ids. -/
abbrev byId (ks : List CryptoHandler) : Handlers := ks.map (fun k => (k.id, k))

theorem get_none_iff {m : Handlers} {id : List Byte} : m.get id = none ↔ id ∉ m.map Prod.fst := by
  induction m with
  | nil => simp [Handlers.get]
  | cons x rest ih =>
    obtain ⟨k, v⟩ := x
    simp only [Handlers.get, List.map_cons, List.mem_cons, not_or]
    split
    · rename_i h; simp [h]
    · rename_i h; rw [ih]; exact ⟨fun h' => ⟨fun e => h e.symm, h'⟩, fun h' => h'.2⟩

theorem loadKeys_iff (es : List DirEntry) (acc hs : Handlers) :
    loadKeys es acc = .ok hs ↔ ∃ ks, es.map keyOf = ks.map some ∧ (ks.map (·.id)).Nodup ∧ (∀ k ∈ ks, acc.get k.id = none) ∧ hs = acc ++ byId ks := by
  induction es generalizing acc with
  | nil =>
    constructor
    · intro h
      cases h
      exact ⟨[], by simp⟩
    · rintro ⟨ks, h1, _, _, rfl⟩
      have : ks = [] := by simpa using h1.symm
      simp [this, loadKeys]
  | cons e rest ih =>
    simp only [loadKeys]
    constructor
    · intro h
      split at h
      · cases h
      · rename_i text ht
        split at h
        · cases h
        · rename_i hd hc
          split at h
          · cases h
          · rename_i hg
            obtain ⟨ks, h1, h2, h3, h4⟩ := (ih _).1 h
            have h3' : ∀ k ∈ ks, k.id ≠ hd.id ∧ acc.get k.id = none := by
              intro k hk
              have := h3 k hk
              rw [handlers_get_append (e := (hd.id, hd)) hg] at this
              split at this
              · cases this
              · rename_i hne; exact ⟨hne, this⟩
            refine ⟨hd :: ks, ?_, ?_, ?_, ?_⟩
            · simp [keyOf, ht, hc, h1]
            · simp only [List.map_cons, List.nodup_cons]
              refine ⟨?_, h2⟩
              intro hm
              obtain ⟨k, hk, he⟩ := List.mem_map.1 hm
              exact (h3' k hk).1 he
            · intro k hk
              rcases List.mem_cons.1 hk with rfl | hk
              · exact hg
              · exact (h3' k hk).2
            · rw [h4]; simp
    · rintro ⟨ks, h1, h2, h3, rfl⟩
      cases ks with
      | nil => simp at h1
      | cons hd ks =>
        simp only [List.map_cons, List.cons.injEq] at h1
        obtain ⟨hk, h1⟩ := h1
        unfold keyOf at hk
        split at hk
        · cases hk
        · rename_i text ht
          split at hk
          · rename_i h' hc
            cases hk
            simp only [ht, hc, h3 hd (by simp)]
            refine (ih _).2 ⟨ks, h1, ?_, ?_, by simp⟩
            · simp only [List.map_cons, List.nodup_cons] at h2; exact h2.2
            · intro k hk
              rw [handlers_get_append (e := (hd.id, hd)) (h3 hd (by simp))]
              rw [if_neg, h3 k (by simp [hk])]
              intro he
              simp only [List.map_cons, List.nodup_cons] at h2
              exact h2.1 (List.mem_map.2 ⟨k, hk, he⟩)
          · cases hk

/-- **C24a.** Loading the keys succeeds exactly when the directory can be read, it contains a key file, every key file contains a valid key
and no two contain the same id; the result is then exactly those keys, each under its own id. -/
theorem C24_keys_loaded_iff (dir : Option (List DirEntry)) (hs : Handlers) [DecidablePred IsKeyFile] :
    createCryptoHandlers dir = .ok hs ↔
      ∃ es ks, dir = some es ∧ (es.filter IsKeyFile).map keyOf = ks.map some ∧ ks ≠ [] ∧ (ks.map (·.id)).Nodup ∧ hs = ks.map (fun k => (k.id, k)) := by
  cases dir with
  | none => simp [createCryptoHandlers, getKeyPaths]
  | some es =>
    have hf : es.filter (fun e => e.isFile && extension e.name == some "key".toList) = es.filter IsKeyFile := by
      apply List.filter_congr
      intro e _
      rw [Bool.eq_iff_iff, keyFile_iff]; simp
    unfold createCryptoHandlers getKeyPaths
    simp only [hf]
    by_cases hn : (es.filter IsKeyFile).length = 0
    · simp only [hn, if_true]
      constructor
      · intro h; cases h
      · rintro ⟨es', ks, he, h1, h2, _⟩
        cases he
        rw [List.length_eq_zero_iff] at hn
        rw [hn] at h1
        exact absurd (by simpa using h1.symm) h2
    · simp only [hn, if_false]
      rw [loadKeys_iff]
      constructor
      · rintro ⟨ks, h1, h2, _, h4⟩
        refine ⟨es, ks, rfl, h1, ?_, h2, by simpa using h4⟩
        rintro rfl
        simp at h1
        exact hn (by simpa using h1)
      · rintro ⟨es', ks, he, h1, _, h3, h4⟩
        cases he
        exact ⟨ks, h1, h3, by simp [Handlers.get], by simpa using h4⟩

theorem byId_get {ks : List CryptoHandler} (hn : (ks.map (·.id)).Nodup) (id : List Byte) (h : CryptoHandler) :
    Handlers.get (byId ks) id = some h ↔ h ∈ ks ∧ h.id = id := by
  induction ks with
  | nil => simp [Handlers.get]
  | cons k rest ih =>
    simp only [List.map_cons, List.nodup_cons] at hn
    simp only [List.map_cons, Handlers.get]
    split
    · rename_i he
      constructor
      · intro h'; cases h'; exact ⟨by simp, he⟩
      · rintro ⟨hm, hid⟩
        rcases List.mem_cons.1 hm with rfl | hm
        · rfl
        · exact absurd (List.mem_map.2 ⟨h, hm, hid.trans he.symm⟩) hn.1
    · rename_i he
      rw [ih hn.2]
      constructor
      · rintro ⟨h1, h2⟩; exact ⟨by simp [h1], h2⟩
      · rintro ⟨hm, hid⟩
        rcases List.mem_cons.1 hm with rfl | hm
        · exact absurd hid he
        · exact ⟨hm, hid⟩

/-- **C24b.** A server that started (in whatever circumstances) can use, under the id `id`, exactly the keys with that id that the key files
of its directory contain; every key file does contain a key and there is at least one. -/
theorem C24_usable_keys (cfg : ServerCfg) (senv : StartEnv) (hord : ∀ m, (senv.order m).Perm m) (w w' : World) (s : Server)
    (h : Server.create cfg senv w = (.ok s, w')) :
    ∃ es, senv.dir = some es ∧ (∃ e ∈ es, IsKeyFile e) ∧ (∀ e ∈ es, IsKeyFile e → ∃ k, keyOf e = some k) ∧
      ∀ id k, s.handlers.get id = some k ↔ ∃ e ∈ es, IsKeyFile e ∧ keyOf e = some k ∧ k.id = id := by
  classical
  obtain ⟨_, h2, _⟩ := (created_of_step hord h).ok s rfl
  obtain ⟨es, ks, h3, h4, h5, h6, h7⟩ := (C24_keys_loaded_iff _ _).1 h2
  have hmem : ∀ k, k ∈ ks ↔ ∃ e ∈ es, IsKeyFile e ∧ keyOf e = some k := by
    intro k
    have : k ∈ ks ↔ some k ∈ (es.filter IsKeyFile).map keyOf := by rw [h4]; simp
    rw [this]
    simp [List.mem_map, List.mem_filter, and_assoc]
  refine ⟨es, h3, ?_, ?_, ?_⟩
  · cases ks with
    | nil => exact absurd rfl h5
    | cons k ks =>
      obtain ⟨e, he, hk, _⟩ := (hmem k).1 (by simp)
      exact ⟨e, he, hk⟩
  · intro e he hk
    have : keyOf e ∈ (es.filter IsKeyFile).map keyOf := List.mem_map.2 ⟨e, by simp [he, hk], rfl⟩
    rw [h4] at this
    obtain ⟨k, _, hk⟩ := List.mem_map.1 this
    exact ⟨k, hk.symm⟩
  · intro id k
    rw [h7, byId_get h6, hmem]
    constructor
    · rintro ⟨⟨e, h1, h2, h3⟩, h4⟩; exact ⟨e, h1, h2, h3, h4⟩
    · rintro ⟨e, h1, h2, h3, h4⟩; exact ⟨⟨e, h1, h2, h3⟩, h4⟩

/-- Non-vacuity: the directory of the example history loads; a duplicate id, an invalid key file, or no key file does not. -/
example : createCryptoHandlers exDir = .ok [(exKey.id, exKey)] := by decide +kernel
example : createCryptoHandlers (exDir.map (· ++ [⟨"b.key".toList, true, some exKeyText⟩])) = .error .duplicateKey := by decide +kernel
example : createCryptoHandlers (exDir.map (· ++ [⟨"b.key".toList, true, some "x".toList⟩])) = .error .badKey := by decide +kernel
example : createCryptoHandlers (some [⟨".key".toList, true, some exKeyText⟩, ⟨"d.key".toList, false, none⟩, ⟨"a.key.bak".toList, true, none⟩]) =
    .error .noKeys := by decide +kernel

end Ruroco
