import Verif.Lemmas.Protocol
import Verif.Lemmas.Sys
import Verif.Model.Blocklist
import Verif.Spec.Terms.Blocklist

namespace Ruroco

/-! ## Maps -/

namespace BlMap

theorem get_insert (m : BlMap) (k k' : List Byte) (v : U128) :
    (m.insert k v).get k' = if k' = k then some v else m.get k' := by
  induction m with
  | nil =>
    by_cases h : k' = k
    · subst h; simp [insert, get]
    · simp [insert, get, h, Ne.symm h]
  | cons e rest ih =>
    obtain ⟨a, b⟩ := e
    simp only [insert]
    by_cases h1 : a = k
    · subst h1
      simp only [if_true, get]
      by_cases h2 : k' = a
      · simp [h2]
      · simp [h2, Ne.symm h2]
    · simp only [h1, if_false, get, ih]
      by_cases h2 : k' = k
      · subst h2; simp [h1]
      · simp [h2]

theorem get_eq_none {m : BlMap} {k : List Byte} : m.get k = none ↔ k ∉ m.map Prod.fst := by
  induction m with
  | nil => simp [get]
  | cons e rest ih =>
    obtain ⟨a, b⟩ := e
    simp only [get, List.map_cons, List.mem_cons, not_or]
    by_cases h : a = k
    · simp [h]
    · simp [h, ih, Ne.symm h]

theorem get_eq_some_of_mem {m : BlMap} (hn : m.Nodup) {k : List Byte} {v : U128} (h : (k, v) ∈ m) : m.get k = some v := by
  induction m with
  | nil => simp at h
  | cons e rest ih =>
    obtain ⟨a, b⟩ := e
    unfold Nodup at hn
    simp only [List.map_cons, List.nodup_cons] at hn
    simp only [get]
    rcases List.mem_cons.1 h with h | h
    · cases h; simp
    · have : a ≠ k := by
        rintro rfl
        exact hn.1 (List.mem_map.2 ⟨_, h, rfl⟩)
      simp [this, ih hn.2 h]

theorem mem_of_get {m : BlMap} {k : List Byte} {v : U128} (h : m.get k = some v) : (k, v) ∈ m := by
  induction m with
  | nil => simp [get] at h
  | cons e rest ih =>
    obtain ⟨a, b⟩ := e
    simp only [get] at h
    by_cases h1 : a = k
    · simp [h1] at h; simp [h1, h]
    · simp [h1] at h; simp [ih h]

theorem get_perm {m m' : BlMap} (hp : m'.Perm m) (hn : m.Nodup) (k : List Byte) : m'.get k = m.get k := by
  have hn' : m'.Nodup := (hp.map Prod.fst).nodup_iff.2 hn
  cases h : m.get k with
  | none =>
    rw [get_eq_none] at h ⊢
    intro hm
    exact h ((hp.map Prod.fst).mem_iff.1 hm)
  | some v => exact get_eq_some_of_mem hn' (hp.mem_iff.2 (mem_of_get h))

theorem keys_insert (m : BlMap) (k : List Byte) (v : U128) :
    (m.insert k v).map Prod.fst = if k ∈ m.map Prod.fst then m.map Prod.fst else m.map Prod.fst ++ [k] := by
  induction m with
  | nil => simp [insert]
  | cons e rest ih =>
    obtain ⟨a, b⟩ := e
    simp only [insert]
    by_cases h1 : a = k
    · simp [h1]
    · simp only [h1, if_false, List.map_cons, ih, List.mem_cons, Ne.symm h1, false_or]
      by_cases h2 : k ∈ rest.map Prod.fst
      · simp [h2]
      · simp [h2]

theorem Nodup.insert {m : BlMap} (hn : m.Nodup) (k : List Byte) (v : U128) : (m.insert k v).Nodup := by
  unfold Nodup
  rw [keys_insert]
  split
  · exact hn
  · rename_i h
    rw [List.nodup_append]
    refine ⟨hn, by simp, ?_⟩
    intro a ha b hb
    simp at hb; subst hb
    rintro rfl
    exact h ha

theorem mem_keys_insert {m : BlMap} {k k' : List Byte} {v : U128} (h : k' ∈ (m.insert k v).map Prod.fst) :
    k' = k ∨ k' ∈ m.map Prod.fst := by
  rw [keys_insert] at h
  split at h
  · exact Or.inr h
  · rcases List.mem_append.1 h with h | h
    · exact Or.inr h
    · exact Or.inl (by simpa using h)

/-- Overwriting and restoring the previous value gives the same map. -/
theorem insert_restore {m : BlMap} {k : List Byte} {prev : U128} (v : U128) (h : m.get k = some prev) :
    (m.insert k v).insert k prev = m := by
  induction m with
  | nil => simp [get] at h
  | cons e rest ih =>
    obtain ⟨a, b⟩ := e
    simp only [get] at h
    simp only [insert]
    by_cases h1 : a = k
    · simp [h1] at h; simp [h1, insert, h]
    · simp [h1] at h; simp [h1, insert, ih h]

theorem remove_restore {m : BlMap} {k : List Byte} (v : U128) (h : m.get k = none) : (m.insert k v).remove k = m := by
  induction m with
  | nil => simp [insert, remove]
  | cons e rest ih =>
    obtain ⟨a, b⟩ := e
    simp only [get] at h
    by_cases h1 : a = k
    · simp [h1] at h
    · simp [h1] at h
      have := ih h
      simp only [remove] at this ⊢
      simp only [insert, h1, if_false]
      rw [List.filter_cons_of_pos (by simpa using h1), this]

theorem foldl_insert_append (es acc : BlMap) (hn : (acc ++ es).Nodup) :
    es.foldl (fun m e => BlMap.insert m e.1 e.2) acc = acc ++ es := by
  induction es generalizing acc with
  | nil => simp
  | cons e rest ih =>
    have hins : BlMap.insert acc e.1 e.2 = acc ++ [e] := by
      have hnot : e.1 ∉ acc.map Prod.fst := by
        unfold Nodup at hn
        rw [List.map_append, List.nodup_append] at hn
        intro hm
        exact hn.2.2 _ hm _ (by simp) rfl
      clear ih hn
      induction acc with
      | nil => rfl
      | cons x xs ih =>
        obtain ⟨a, b⟩ := x
        simp at hnot
        simp [insert, Ne.symm hnot.1, ih (by simpa using hnot.2)]
    rw [List.foldl_cons, hins, ih _ (by simpa using hn)]
    simp

theorem foldl_insert_nil (es : BlMap) (hn : es.Nodup) : es.foldl (fun m e => BlMap.insert m e.1 e.2) [] = es := by
  simpa using foldl_insert_append es [] (by simpa using hn)

theorem foldl_insert_nodup (es acc : BlMap) (hn : acc.Nodup) : (es.foldl (fun m e => BlMap.insert m e.1 e.2) acc).Nodup := by
  induction es generalizing acc with
  | nil => exact hn
  | cons e rest ih => exact ih _ (hn.insert _ _)

theorem foldl_insert_keys (es acc : BlMap) (k : List Byte) (h : k ∈ (es.foldl (fun m e => BlMap.insert m e.1 e.2) acc).map Prod.fst) :
    k ∈ acc.map Prod.fst ∨ k ∈ es.map Prod.fst := by
  induction es generalizing acc with
  | nil => exact Or.inl h
  | cons e rest ih =>
    rcases ih _ h with h | h
    · rcases mem_keys_insert h with h | h
      · right; simp [h]
      · exact Or.inl h
    · right; simp only [List.map_cons, List.mem_cons]; exact Or.inr h

end BlMap

theorem BlMap.Wf.perm {m m' : BlMap} (h : m.Wf) (hp : m'.Perm m) : m'.Wf :=
  ⟨(hp.map Prod.fst).nodup_iff.2 h.nodup, fun k hk => h.key_length k ((hp.map Prod.fst).mem_iff.1 hk)⟩

theorem BlMap.Wf.insert {m : BlMap} (h : m.Wf) {k : List Byte} (hk : k.length = 8) (v : U128) : (m.insert k v).Wf :=
  ⟨h.nodup.insert k v, fun k' hk' => by
    rcases BlMap.mem_keys_insert hk' with rfl | h'
    · exact hk
    · exact h.key_length _ h'⟩

/-! ## Codec -/

theorem takeN_some {n : Nat} {bs v r : List Byte} (h : takeN n bs = some (v, r)) : n ≤ bs.length ∧ v = bs.take n ∧ r = bs.drop n := by
  unfold takeN at h
  split at h
  · rename_i hl
    obtain ⟨rfl, rfl⟩ := Prod.mk.inj (Option.some.inj h)
    exact ⟨hl, rfl, rfl⟩
  · cases h

theorem intForm_some {b : Byte} {p l : Nat} (h : intForm b = some (p, l)) : 204 ≤ b.toNat ∧ b.toNat ≤ 211 ∧ 1 ≤ p ∧ l ≤ 256 ∧ (p = 1 → b = 0xcc ∧ l = 256 ∨ b = 0xd0 ∧ l = 128) := by
  unfold intForm at h
  repeat' split at h
  all_goals first
    | (cases h; done)
    | (rename_i hb; obtain ⟨rfl, rfl⟩ := Prod.mk.inj (Option.some.inj h); subst hb; decide)

/-- How an integer was read: the byte itself, or `p` bytes after a marker. -/
theorem decU8_some {x b : Byte} {R r : List Byte} (h : decU8 (x :: R) = some (b, r)) :
    (x.toNat < 128 ∧ b = x ∧ r = R) ∨
    (¬ x.toNat < 128 ∧ ∃ p l, intForm x = some (p, l) ∧ p ≤ R.length ∧ ofBE (R.take p) < l ∧ b = BitVec.ofNat 8 (ofBE (R.take p)) ∧ r = R.drop p) := by
  by_cases hx : x.toNat < 128
  · simp only [decU8, if_pos hx, Option.some.injEq, Prod.mk.injEq] at h
    exact .inl ⟨hx, h.1.symm, h.2.symm⟩
  · simp only [decU8, if_neg hx] at h
    cases h1 : intForm x with
    | none => simp [h1] at h
    | some q =>
      obtain ⟨p, l⟩ := q
      simp only [h1] at h
      cases h2 : takeN p R with
      | none => simp [h2] at h
      | some q =>
        obtain ⟨v, r'⟩ := q
        simp only [h2] at h
        obtain ⟨h3, rfl, rfl⟩ := takeN_some h2
        split at h
        · rename_i hl
          obtain ⟨rfl, rfl⟩ := Prod.mk.inj (Option.some.inj h)
          exact .inr ⟨hx, p, l, rfl, h3, hl, rfl, rfl⟩
        · cases h

theorem decU8_low {b : Byte} (h : b.toNat < 128) (r : List Byte) : decU8 (b :: r) = some (b, r) := by simp [decU8, h]

theorem decU8_cc (x : Byte) (r : List Byte) : decU8 (0xcc :: x :: r) = some (x, r) := by
  have h1 : ¬ (0xcc : Byte).toNat < 128 := by decide
  have h2 : ofBE [x] = x.toNat := by simp [ofBE]
  have h3 : takeN 1 (x :: r) = some ([x], r) := by simp [takeN]
  have h4 : intForm 0xcc = some (1, 256) := rfl
  simp only [decU8, if_neg h1, h4, h3, h2, if_pos x.isLt, BitVec.ofNat_toNat, BitVec.setWidth_eq]

theorem decU8_encU8 (b : Byte) (r : List Byte) : decU8 (encU8 b ++ r) = some (b, r) := by
  unfold encU8
  split
  · rename_i h; exact decU8_low h r
  · exact decU8_cc b r

theorem decU8s_enc (k r : List Byte) : decU8s k.length (k.flatMap encU8 ++ r) = some (k, r) := by
  induction k with
  | nil => rfl
  | cons b bs ih =>
    simp only [List.length_cons, List.flatMap_cons, List.append_assoc, decU8s, decU8_encU8, ih]

theorem takeN_append (xs r : List Byte) (n : Nat) (h : xs.length = n) : takeN n (xs ++ r) = some (xs, r) := by
  subst h
  simp [takeN]

theorem decVal_encVal (c : U128) (r : List Byte) : decVal (encVal c ++ r) = some (c, r) := by
  simp only [encVal, decVal, List.cons_append, and_self, if_true]
  rw [takeN_append _ _ _ (by simp)]
  simp only [U128_ofBE_beBytes]

theorem decEntry_encEntry (e : List Byte × U128) (h : e.1.length = 8) (r : List Byte) :
    decEntry (encEntry e ++ r) = some (e, r) := by
  obtain ⟨k, v⟩ := e
  simp only at h
  have h1 : ∀ t, arrHeader 8 (0x98 :: t) = some t := fun t => by simp [arrHeader]
  simp only [encEntry, encKey, decEntry, List.cons_append, List.append_assoc, h1]
  rw [← h, decU8s_enc]
  simp only [decVal_encVal]

theorem decEntries_enc (m : BlMap) (h : ∀ k ∈ m.map Prod.fst, k.length = 8) (r : List Byte) :
    decEntries m.length (m.flatMap encEntry ++ r) = some (m, r) := by
  induction m with
  | nil => rfl
  | cons e rest ih =>
    simp only [List.length_cons, List.flatMap_cons, List.append_assoc, decEntries]
    rw [decEntry_encEntry e (h _ (by simp))]
    simp only
    rw [ih (fun k hk => h k (by simp only [List.map_cons, List.mem_cons]; exact Or.inr hk))]

theorem decMapHeader_enc (n : Nat) (hn : n < 2 ^ 32) (r : List Byte) : decMapHeader (mapHeader n ++ r) = some (n, r) := by
  unfold mapHeader
  split
  · rename_i h
    have : (BitVec.ofNat 8 (0x80 + n)).toNat = 0x80 + n := by simp; omega
    simp only [List.cons_append, List.nil_append, decMapHeader, this]
    rw [if_pos (by omega)]
    simp
  · split
    · rename_i h1 h2
      simp only [List.cons_append, decMapHeader]
      rw [if_neg (by decide), if_pos trivial, takeN_append _ _ _ (by simp)]
      simp only [ofBE_beBytes]
      rw [Nat.mod_eq_of_lt (by omega)]
    · simp only [List.cons_append, decMapHeader]
      rw [if_neg (by decide), if_neg (by decide), if_pos trivial, takeN_append _ _ _ (by simp)]
      simp only [ofBE_beBytes]
      rw [Nat.mod_eq_of_lt (by omega)]

theorem encodeBl_ok {m : BlMap} {bs : List Byte} (h : encodeBl m = .ok bs) :
    m.length < 2 ^ 32 ∧ bs = 0x91 :: mapHeader m.length ++ m.flatMap encEntry := by
  unfold encodeBl at h
  split at h
  · rename_i hl
    exact ⟨hl, (Except.ok.inj h).symm⟩
  · cases h

theorem flatMap_length_le {α : Type} (f : α → List Byte) (c : Nat) (l : List α) (h : ∀ a ∈ l, (f a).length ≤ c) : (l.flatMap f).length ≤ c * l.length := by
  induction l with
  | nil => simp
  | cons a rest ih =>
    have h1 := h a (by simp)
    have h2 := ih (fun b hb => h b (by simp [hb]))
    simp only [List.flatMap_cons, List.length_append, List.length_cons, Nat.mul_succ]
    omega

/-- The file takes at most 35 bytes for a key and 6 bytes besides. -/
theorem encodeBl_length {m : BlMap} (hm : ∀ k ∈ m.map Prod.fst, k.length = 8) {bs : List Byte} (h : encodeBl m = .ok bs) : bs.length ≤ 6 + 35 * m.length := by
  obtain ⟨_, rfl⟩ := encodeBl_ok h
  have hh : (mapHeader m.length).length ≤ 5 := by unfold mapHeader; repeat' split <;> simp
  have he := flatMap_length_le encEntry 35 m (fun e he => by
    have h8 := hm e.1 (List.mem_map_of_mem he)
    have := flatMap_length_le encU8 2 e.1 (fun b _ => by unfold encU8; split <;> simp)
    simp only [encEntry, encKey, encVal, List.length_append, List.length_cons, beBytes_length]
    omega)
  simp only [List.length_append, List.length_cons]
  omega

theorem decodeBl_encodeBl {m : BlMap} (hm : m.Wf) {bs : List Byte} (h : encodeBl m = .ok bs) (r : List Byte) :
    decodeBl (bs ++ r) = some m := by
  obtain ⟨hl, rfl⟩ := encodeBl_ok h
  have h0 : ∀ t, arrHeader 1 (0x91 :: t) = some t := fun t => by simp [arrHeader]
  simp only [List.cons_append, List.append_assoc, decodeBl, h0]
  rw [decMapHeader_enc _ hl]
  simp only
  rw [decEntries_enc m hm.key_length]
  simp only
  rw [BlMap.foldl_insert_nil _ hm.nodup]

/-! Appending bytes does not change what a successful decoder read. -/

theorem takeN_append' {n : Nat} {bs v r : List Byte} (h : takeN n bs = some (v, r)) (s : List Byte) :
    takeN n (bs ++ s) = some (v, r ++ s) := by
  unfold takeN at h ⊢
  split at h
  · rename_i hl
    simp at h
    obtain ⟨rfl, rfl⟩ := h
    rw [if_pos (by simp; omega), List.take_append_of_le_length hl, List.drop_append_of_le_length hl]
  · cases h

theorem decU8_append {bs : List Byte} {x : Byte} {r : List Byte} (h : decU8 bs = some (x, r)) (s : List Byte) :
    decU8 (bs ++ s) = some (x, r ++ s) := by
  cases bs with
  | nil => simp [decU8] at h
  | cons b t =>
    rcases decU8_some h with ⟨h1, rfl, rfl⟩ | ⟨h1, p, l, h2, h3, h4, rfl, rfl⟩
    · exact decU8_low h1 _
    · simp only [decU8, List.cons_append, if_neg h1, h2]
      rw [show takeN p (t ++ s) = some (t.take p, t.drop p ++ s) from takeN_append' (by simp [takeN, h3]) s]
      simp only [if_pos h4]

theorem arrHeader_append {n : Nat} {bs r : List Byte} (h : arrHeader n bs = some r) (s : List Byte) : arrHeader n (bs ++ s) = some (r ++ s) := by
  rcases bs with _ | ⟨a, t⟩
  · simp [arrHeader] at h
  · simp only [arrHeader, List.cons_append] at h ⊢
    split at h
    · rename_i hc; simp at h; simp [hc, h]
    · rename_i hc
      rw [if_neg hc]
      split at h
      · rename_i hd
        rw [if_pos hd]
        cases h1 : takeN 2 t with
        | none => simp [h1] at h
        | some p =>
          obtain ⟨x, y⟩ := p
          simp only [h1] at h
          simp only [takeN_append' h1]
          split at h
          · rename_i hx; simp at h; simp [hx, h]
          · cases h
      · rename_i hd
        rw [if_neg hd]
        split at h
        · rename_i he
          rw [if_pos he]
          cases h1 : takeN 4 t with
          | none => simp [h1] at h
          | some p =>
            obtain ⟨x, y⟩ := p
            simp only [h1] at h
            simp only [takeN_append' h1]
            split at h
            · rename_i hx; simp at h; simp [hx, h]
            · cases h
        · cases h

theorem decU8s_append {n : Nat} {bs k r : List Byte} (h : decU8s n bs = some (k, r)) (s : List Byte) :
    decU8s n (bs ++ s) = some (k, r ++ s) := by
  induction n generalizing bs k with
  | zero => simp [decU8s] at h; simp [decU8s, h]
  | succ n ih =>
    simp only [decU8s] at h ⊢
    cases h1 : decU8 bs with
    | none => simp [h1] at h
    | some p =>
      obtain ⟨b, r'⟩ := p
      simp only [h1] at h
      cases h2 : decU8s n r' with
      | none => simp [h2] at h
      | some q =>
        obtain ⟨bs', r''⟩ := q
        simp [h2] at h
        obtain ⟨rfl, rfl⟩ := h
        simp [decU8_append h1, ih h2]

theorem decVal_append {bs : List Byte} {v : U128} {r : List Byte} (h : decVal bs = some (v, r)) (s : List Byte) :
    decVal (bs ++ s) = some (v, r ++ s) := by
  rcases bs with _ | ⟨a, _ | ⟨b, t⟩⟩
  · simp [decVal] at h
  · simp [decVal] at h
  · simp only [decVal, List.cons_append] at h ⊢
    split at h
    · rename_i hc
      cases h1 : takeN 16 t with
      | none => simp [h1] at h
      | some p =>
        obtain ⟨x, y⟩ := p
        simp [h1] at h
        obtain ⟨rfl, rfl⟩ := h
        simp [hc, takeN_append' h1]
    · cases h

theorem decU8s_succ {n : Nat} {bs k r : List Byte} (h : decU8s (n + 1) bs = some (k, r)) : ∃ b r' k', decU8 bs = some (b, r') ∧ decU8s n r' = some (k', r) ∧ k = b :: k' := by
  simp only [decU8s] at h
  cases h1 : decU8 bs with
  | none => simp [h1] at h
  | some p =>
    obtain ⟨b, r'⟩ := p
    simp only [h1] at h
    cases h2 : decU8s n r' with
    | none => simp [h2] at h
    | some q =>
      obtain ⟨k', r''⟩ := q
      simp [h2] at h
      obtain ⟨rfl, rfl⟩ := h
      exact ⟨b, r', k', rfl, h2, rfl⟩

theorem decVal_some {bs r : List Byte} {v : U128} (h : decVal bs = some (v, r)) : ∃ t, bs = 0xc4 :: 16 :: t ∧ 16 ≤ t.length ∧ v = BitVec.ofNat 128 (ofBE (t.take 16)) ∧ r = t.drop 16 := by
  rcases bs with _ | ⟨a, _ | ⟨b, t⟩⟩
  · cases h
  · cases h
  · simp only [decVal] at h
    split at h
    · rename_i hab
      obtain ⟨rfl, rfl⟩ := hab
      unfold takeN at h
      split at h
      · rename_i x y hxy
        split at hxy
        · cases hxy
          cases h
          exact ⟨t, rfl, by assumption, rfl, rfl⟩
        · cases hxy
      · cases h
    · cases h

theorem decEntry_some {bs r : List Byte} {e : List Byte × U128} (h : decEntry bs = some (e, r)) : ∃ t r', arrHeader 8 bs = some t ∧ decU8s 8 t = some (e.1, r') ∧ decVal r' = some (e.2, r) := by
  unfold decEntry at h
  cases h0 : arrHeader 8 bs with
  | none => simp [h0] at h
  | some t =>
    simp only [h0] at h
    cases h1 : decU8s 8 t with
    | none => simp [h1] at h
    | some p =>
      obtain ⟨k, r'⟩ := p
      simp only [h1] at h
      cases h2 : decVal r' with
      | none => simp [h2] at h
      | some q =>
        obtain ⟨v, r2⟩ := q
        simp [h2] at h
        obtain ⟨rfl, rfl⟩ := h
        exact ⟨t, r', rfl, h1, h2⟩

theorem decEntry_append {bs : List Byte} {e : List Byte × U128} {r : List Byte} (h : decEntry bs = some (e, r)) (s : List Byte) :
    decEntry (bs ++ s) = some (e, r ++ s) := by
  obtain ⟨t, r', h1, h2, h3⟩ := decEntry_some h
  simp only [decEntry, arrHeader_append h1, decU8s_append h2, decVal_append h3]

theorem decEntries_succ {n : Nat} {bs r : List Byte} {es : BlMap} (h : decEntries (n + 1) bs = some (es, r)) :
    ∃ e r' es', decEntry bs = some (e, r') ∧ decEntries n r' = some (es', r) ∧ es = e :: es' := by
  simp only [decEntries] at h
  cases h1 : decEntry bs with
  | none => simp [h1] at h
  | some p =>
    obtain ⟨e, r'⟩ := p
    simp only [h1] at h
    cases h2 : decEntries n r' with
    | none => simp [h2] at h
    | some q =>
      obtain ⟨es', r''⟩ := q
      simp [h2] at h
      obtain ⟨rfl, rfl⟩ := h
      exact ⟨e, r', es', rfl, h2, rfl⟩

theorem decEntries_append {n : Nat} {bs : List Byte} {es : BlMap} {r : List Byte} (h : decEntries n bs = some (es, r)) (s : List Byte) :
    decEntries n (bs ++ s) = some (es, r ++ s) := by
  induction n generalizing bs es with
  | zero => simp [decEntries] at h; simp [decEntries, h]
  | succ n ih =>
    simp only [decEntries] at h ⊢
    cases h1 : decEntry bs with
    | none => simp [h1] at h
    | some p =>
      obtain ⟨b, r'⟩ := p
      simp only [h1] at h
      cases h2 : decEntries n r' with
      | none => simp [h2] at h
      | some q =>
        obtain ⟨bs', r''⟩ := q
        simp [h2] at h
        obtain ⟨rfl, rfl⟩ := h
        simp [decEntry_append h1, ih h2]

theorem decMapHeader_append {bs : List Byte} {n : Nat} {r : List Byte} (h : decMapHeader bs = some (n, r)) (s : List Byte) :
    decMapHeader (bs ++ s) = some (n, r ++ s) := by
  rcases bs with _ | ⟨a, t⟩
  · simp [decMapHeader] at h
  · simp only [decMapHeader, List.cons_append] at h ⊢
    split at h
    · rename_i hc; simp at h; simp [hc, h]
    · rename_i hc
      rw [if_neg hc]
      split at h
      · rename_i hd
        rw [if_pos hd]
        cases h1 : takeN 2 t with
        | none => simp [h1] at h
        | some p =>
          obtain ⟨x, y⟩ := p
          simp [h1] at h
          obtain ⟨rfl, rfl⟩ := h
          simp [takeN_append' h1]
      · rename_i hd
        rw [if_neg hd]
        split at h
        · rename_i he
          rw [if_pos he]
          cases h1 : takeN 4 t with
          | none => simp [h1] at h
          | some p =>
            obtain ⟨x, y⟩ := p
            simp [h1] at h
            obtain ⟨rfl, rfl⟩ := h
            simp [takeN_append' h1]
        · cases h

/-- A truncated file is refused. -/
theorem decodeBl_truncated {m : BlMap} (hm : m.Wf) {bs p s : List Byte} (h : encodeBl m = .ok bs) (hps : bs = p ++ s)
    (hs : s ≠ []) : decodeBl p = none := by
  obtain ⟨hl, rfl⟩ := encodeBl_ok h
  rcases p with _ | ⟨a, t⟩
  · rfl
  · simp only [List.cons_append, List.cons.injEq] at hps
    obtain ⟨rfl, hps⟩ := hps
    have h0 : arrHeader 1 (0x91 :: t) = some t := by simp [arrHeader]
    simp only [decodeBl, h0]
    cases h1 : decMapHeader t with
    | none => rfl
    | some q =>
      obtain ⟨n, r'⟩ := q
      simp only
      cases h2 : decEntries n r' with
      | none => rfl
      | some q =>
        exfalso
        obtain ⟨es, r''⟩ := q
        have e1 := decMapHeader_append h1 s
        rw [← hps] at e1
        have e1' := decMapHeader_enc m.length hl (m.flatMap encEntry)
        rw [e1'] at e1
        simp only [Option.some.injEq, Prod.mk.injEq] at e1
        obtain ⟨rfl, e1⟩ := e1
        have e2 := decEntries_append h2 s
        rw [← e1] at e2
        have e2' := decEntries_enc m hm.key_length []
        rw [List.append_nil] at e2'
        rw [e2'] at e2
        simp at e2
        exact hs e2.2.2

theorem decU8s_length {n : Nat} {bs k r : List Byte} (h : decU8s n bs = some (k, r)) : k.length = n := by
  induction n generalizing bs k with
  | zero => simp [decU8s] at h; simp [h]
  | succ n ih =>
    simp only [decU8s] at h
    cases h1 : decU8 bs with
    | none => simp [h1] at h
    | some p =>
      obtain ⟨b, r'⟩ := p
      simp only [h1] at h
      cases h2 : decU8s n r' with
      | none => simp [h2] at h
      | some q =>
        obtain ⟨bs', r''⟩ := q
        simp [h2] at h
        obtain ⟨rfl, rfl⟩ := h
        simp [ih h2]

theorem decEntries_keys {n : Nat} {bs : List Byte} {es : BlMap} {r : List Byte} (h : decEntries n bs = some (es, r)) :
    ∀ k ∈ es.map Prod.fst, k.length = 8 := by
  induction n generalizing bs es with
  | zero => simp [decEntries] at h; simp [h]
  | succ n ih =>
    simp only [decEntries] at h
    cases h1 : decEntry bs with
    | none => simp [h1] at h
    | some p =>
      obtain ⟨b, r'⟩ := p
      simp only [h1] at h
      cases h2 : decEntries n r' with
      | none => simp [h2] at h
      | some q =>
        obtain ⟨bs', r''⟩ := q
        simp [h2] at h
        obtain ⟨rfl, rfl⟩ := h
        intro k hk
        simp only [List.map_cons, List.mem_cons] at hk
        rcases hk with rfl | hk
        · obtain ⟨_, _, _, h3, _⟩ := decEntry_some h1
          exact decU8s_length h3
        · exact ih h2 k hk

/-- Whatever file is accepted, the map read from it is well-formed. -/
theorem decodeBl_wf {bs : List Byte} {m : BlMap} (h : decodeBl bs = some m) : m.Wf := by
  unfold decodeBl at h
  cases h0 : arrHeader 1 bs with
  | none => simp [h0] at h
  | some t =>
    simp only [h0] at h
    cases h1 : decMapHeader t with
    | none => simp [h1] at h
    | some q =>
      obtain ⟨n, r'⟩ := q
      simp only [h1] at h
      cases h2 : decEntries n r' with
      | none => simp [h2] at h
      | some q =>
        obtain ⟨es, r''⟩ := q
        simp [h2] at h
        subst h
        refine ⟨BlMap.foldl_insert_nodup _ _ (by simp [BlMap.Nodup]), ?_⟩
        intro k hk
        rcases BlMap.foldl_insert_keys _ _ _ hk with hk | hk
        · simp at hk
        · exact decEntries_keys h2 k hk

end Ruroco
