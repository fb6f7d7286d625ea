import Verif.Lemmas.Blocklist

/-!
# What the reader of the replay state makes of a file with one byte changed
-/

namespace Ruroco

theorem encU8_low {y : Byte} (h : y.toNat < 128) : encU8 y = [y] := by simp [encU8, h]

theorem encU8_high {y : Byte} (h : ¬ y.toNat < 128) : encU8 y = [0xcc, y] := by simp [encU8, h]

/-- What is left of an entry from some byte of its key on: the numbers `k`, then the value. -/
def rest (k t : List Byte) : List Byte := k.flatMap encU8 ++ 0xc4 :: 16 :: t

theorem rest_low {y : Byte} (h : y.toNat < 128) (k t : List Byte) : rest (y :: k) t = y :: rest k t := by simp [rest, encU8_low h]

theorem rest_high {y : Byte} (h : ¬ y.toNat < 128) (k t : List Byte) : rest (y :: k) t = 0xcc :: y :: rest k t := by simp [rest, encU8_high h]

theorem ofBE_foldl (bs : List Byte) (a : Nat) : bs.foldl (fun acc b => acc * 256 + b.toNat) a = a * 256 ^ bs.length + ofBE bs := by
  unfold ofBE
  induction bs generalizing a with
  | nil => simp
  | cons b bs ih =>
    simp only [List.foldl_cons, List.length_cons]
    rw [ih, ih (0 * 256 + b.toNat), Nat.pow_succ, Nat.add_mul]
    rw [show a * 256 * 256 ^ bs.length = a * (256 ^ bs.length * 256) by rw [Nat.mul_assoc, Nat.mul_comm 256]]
    simp only [Nat.zero_mul, Nat.zero_add]
    omega

theorem ofBE_cons (b : Byte) (bs : List Byte) : ofBE (b :: bs) = b.toNat * 256 ^ bs.length + ofBE bs := by
  show List.foldl _ _ _ = _
  rw [List.foldl_cons, ofBE_foldl]
  simp

/-- The value begins with something that is no number. -/
theorem decU8_value (t : List Byte) : decU8 (0xc4 :: t) = none := by
  simp [decU8, intForm]

/-- More numbers than there are. -/
theorem decU8s_more (k t : List Byte) (n : Nat) (hn : k.length < n) : decU8s n (rest k t) = none := by
  induction k generalizing n with
  | nil =>
    obtain ⟨m, rfl⟩ : ∃ m, n = m + 1 := ⟨n - 1, by simp at hn; omega⟩
    simp only [rest, List.flatMap_nil, List.nil_append, decU8s, decU8_value]
  | cons y k ih =>
    obtain ⟨m, rfl⟩ : ∃ m, n = m + 1 := ⟨n - 1, by simp at hn; omega⟩
    simp only [rest, List.flatMap_cons, List.append_assoc]
    rw [decU8s, decU8_encU8]
    simp only
    have := ih m (by simp at hn; omega)
    rw [rest] at this
    rw [this]

/-- In step, with at least as many numbers wanted as there are. -/
theorem decU8s_inStep (k t : List Byte) (n : Nat) (hn : k.length ≤ n) {k' r' : List Byte} (h : decU8s n (rest k t) = some (k', r')) : r' = 0xc4 :: 16 :: t := by
  by_cases hlt : k.length < n
  · rw [decU8s_more k t n hlt] at h
    cases h
  · have : n = k.length := by omega
    subst this
    rw [rest, decU8s_enc] at h
    exact (Prod.mk.inj (Option.some.inj h)).2.symm

/-- After a marker some bytes are taken: the rest begins with a whole number, with the second half of one, or behind the first byte of the value. -/
theorem rest_drop (k t : List Byte) (p : Nat) (h1 : 1 ≤ p) (hp : p ≤ (rest k t).length) (hv : ofBE ((rest k t).take p) < 256) :
    (∃ k2, k2.length < k.length ∧ (rest k t).drop p = rest k2 t) ∨ (∃ x k2, ¬ x.toNat < 128 ∧ k2.length < k.length ∧ (rest k t).drop p = x :: rest k2 t) ∨ (rest k t).drop p = 16 :: t := by
  induction k generalizing p with
  | nil =>
    right; right
    rcases p with _ | _ | p
    · omega
    · rfl
    · exfalso
      simp only [rest, List.flatMap_nil, List.nil_append, List.take_succ_cons] at hv
      rw [ofBE_cons] at hv
      simp only [List.length_cons] at hv
      have h2 : 1 ≤ 256 ^ (List.take p t).length := Nat.one_le_pow _ _ (by decide)
      have h3 : (0xc4 : Byte).toNat = 196 := rfl
      rw [h3, Nat.pow_succ] at hv
      omega
  | cons y k ih =>
    have tail : ∀ (b : Byte) (bs : List Byte), ofBE (b :: bs) < 256 → ofBE bs < 256 := fun b bs h => by rw [ofBE_cons] at h; omega
    by_cases hy : y.toNat < 128
    · rw [rest_low hy] at hp hv ⊢
      rcases p with _ | _ | p
      · omega
      · exact .inl ⟨k, by simp, rfl⟩
      · simp only [List.length_cons] at hp
        rw [List.take_succ_cons] at hv
        rcases ih (p + 1) (by omega) (by omega) (tail _ _ hv) with ⟨k2, h2, h3⟩ | ⟨x, k2, hx, h2, h3⟩ | h3
        · exact .inl ⟨k2, by simp; omega, by rw [List.drop_succ_cons]; exact h3⟩
        · exact .inr (.inl ⟨x, k2, hx, by simp; omega, by rw [List.drop_succ_cons]; exact h3⟩)
        · exact .inr (.inr (by rw [List.drop_succ_cons]; exact h3))
    · rw [rest_high hy] at hp hv ⊢
      rcases p with _ | _ | _ | p
      · omega
      · exact .inr (.inl ⟨y, k, hy, by simp, rfl⟩)
      · exact .inl ⟨k, by simp, rfl⟩
      · simp only [List.length_cons] at hp
        rw [List.take_succ_cons, List.take_succ_cons] at hv
        rcases ih (p + 1) (by omega) (by omega) (tail _ _ (tail _ _ hv)) with ⟨k2, h2, h3⟩ | ⟨x, k2, hx, h2, h3⟩ | h3
        · exact .inl ⟨k2, by simp; omega, by rw [List.drop_succ_cons, List.drop_succ_cons]; exact h3⟩
        · exact .inr (.inl ⟨x, k2, hx, by simp; omega, by rw [List.drop_succ_cons, List.drop_succ_cons]; exact h3⟩)
        · exact .inr (.inr (by rw [List.drop_succ_cons, List.drop_succ_cons]; exact h3))

theorem decU8s_zeros (n : Nat) (m : Nat) (hn : n < m) (t : List Byte) {k' r' : List Byte} (h : decU8s n (List.replicate m 0 ++ t) = some (k', r')) : ∃ r2, r' = 0 :: r2 := by
  induction n generalizing m k' with
  | zero =>
    obtain ⟨m, rfl⟩ : ∃ j, m = j + 1 := ⟨m - 1, by omega⟩
    simp only [decU8s, Option.some.injEq, Prod.mk.injEq, List.replicate_succ, List.cons_append] at h
    exact ⟨_, h.2.symm⟩
  | succ n ih =>
    obtain ⟨m, rfl⟩ : ∃ j, m = j + 1 := ⟨m - 1, by omega⟩
    obtain ⟨b, r1, k1, h1, h2, rfl⟩ := decU8s_succ h
    rw [List.replicate_succ, List.cons_append, decU8_low (by decide)] at h1
    obtain ⟨_, rfl⟩ := Prod.mk.inj (Option.some.inj h1)
    exact ih m (by omega) h2

/-- Behind the first byte of a value that begins with eight zeros there is no value to be found with at most eight numbers before it. -/
theorem decU8s_late (t : List Byte) (n : Nat) (hn : n ≤ 8) {k' r' : List Byte} (h : decU8s n (16 :: (List.replicate 8 0 ++ t)) = some (k', r')) : decVal r' = none := by
  cases n with
  | zero =>
    simp only [decU8s, Option.some.injEq, Prod.mk.injEq] at h
    rw [← h.2]
    rfl
  | succ n =>
    obtain ⟨b, r1, k1, h1, h2, rfl⟩ := decU8s_succ h
    rw [decU8_low (by decide)] at h1
    obtain ⟨_, rfl⟩ := Prod.mk.inj (Option.some.inj h1)
    obtain ⟨r2, rfl⟩ := decU8s_zeros n 8 (by omega) t h2
    rcases r2 with _ | ⟨a, r2⟩ <;> rfl

/-- Reading is out of step, with at least as many numbers wanted as there are: it falls into step again, or fails. `t`: a value below 2^64, and what follows. -/
theorem decU8s_off (k t : List Byte) (x : Byte) (hx : ¬ x.toNat < 128) (n : Nat) (hn : k.length ≤ n) (h8 : n ≤ 8) {k' r' : List Byte}
    (h : decU8s n (x :: rest k (List.replicate 8 0 ++ t)) = some (k', r')) (hv : decVal r' ≠ none) : r' = 0xc4 :: 16 :: (List.replicate 8 0 ++ t) := by
  induction n generalizing k x k' with
  | zero =>
    have : k = [] := List.length_eq_zero_iff.1 (by omega)
    subst this
    simp only [decU8s, rest, List.flatMap_nil, List.nil_append, Option.some.injEq, Prod.mk.injEq] at h
    exfalso
    apply hv
    rw [← h.2]
    simp [decVal]
  | succ n ih =>
    obtain ⟨b, r1, k1, h1, h2, rfl⟩ := decU8s_succ h
    rcases decU8_some h1 with ⟨h3, _⟩ | ⟨_, p, l, h3, h4, h5, _, rfl⟩
    · exact absurd h3 hx
    · obtain ⟨_, _, hp, hl, _⟩ := intForm_some h3
      rcases rest_drop _ _ p hp h4 (by omega) with ⟨k2, h6, h7⟩ | ⟨x2, k2, hx2, h6, h7⟩ | h7
      · rw [h7] at h2
        exact decU8s_inStep k2 _ n (by omega) h2
      · rw [h7] at h2
        exact ih k2 x2 hx2 (by omega) (by omega) h2
      · rw [h7] at h2
        exact absurd (decU8s_late _ n (by omega) h2) hv

/-- After a marker some bytes of a key were taken, with more numbers wanted than can be there: it falls into step again, or fails. -/
theorem decU8s_taken (k t : List Byte) (p : Nat) (h1 : 1 ≤ p) (hp : p ≤ (rest k (List.replicate 8 0 ++ t)).length) (hv : ofBE ((rest k (List.replicate 8 0 ++ t)).take p) < 256) (n : Nat)
    (hn : k.length ≤ n + 1) (h8 : n ≤ 8) {k' r' : List Byte} (h : decU8s n ((rest k (List.replicate 8 0 ++ t)).drop p) = some (k', r')) (hr : decVal r' ≠ none) :
    r' = 0xc4 :: 16 :: (List.replicate 8 0 ++ t) := by
  rcases rest_drop _ _ p h1 hp hv with ⟨k2, h6, h7⟩ | ⟨x2, k2, hx2, h6, h7⟩ | h7
  · rw [h7] at h
    exact decU8s_inStep k2 _ n (by omega) h
  · rw [h7] at h
    exact decU8s_off k2 t x2 hx2 n (by omega) h8 h hr
  · rw [h7] at h
    exact absurd (decU8s_late _ n h8 h) hr

/-- A byte of a key id is changed. -/
theorem decU8s_set (k t : List Byte) (h8 : k.length ≤ 8) (i : Nat) (b : Byte) (hi : i < (k.flatMap encU8).length) {k' r' : List Byte}
    (h : decU8s k.length ((k.flatMap encU8).set i b ++ 0xc4 :: 16 :: (List.replicate 8 0 ++ t)) = some (k', r')) (hv : decVal r' ≠ none) : r' = 0xc4 :: 16 :: (List.replicate 8 0 ++ t) := by
  induction k generalizing i k' with
  | nil => simp at hi
  | cons y k ih =>
    obtain ⟨c, r1, k1, h1, h2, rfl⟩ := decU8s_succ h
    simp only [List.length_cons] at h8
    rw [List.flatMap_cons] at h1 hi
    by_cases hy : y.toNat < 128
    · rw [encU8_low hy] at h1 hi
      cases i with
      | zero =>
        simp only [List.cons_append, List.nil_append, List.set_cons_zero] at h1
        rcases decU8_some h1 with ⟨_, _, rfl⟩ | ⟨_, p, l, h3, h4, h5, _, rfl⟩
        · exact decU8s_inStep k _ k.length (Nat.le_refl _) h2
        · obtain ⟨_, _, hp, hl, _⟩ := intForm_some h3
          exact decU8s_taken k t p hp h4 (by rw [rest]; omega) k.length (by omega) (by omega) h2 hv
      | succ i =>
        simp only [List.cons_append, List.nil_append, List.set_cons_succ, List.length_cons] at h1 hi
        rw [decU8_low hy] at h1
        obtain ⟨_, rfl⟩ := Prod.mk.inj (Option.some.inj h1)
        exact ih (by omega) i (by omega) h2
    · rw [encU8_high hy] at h1 hi
      rcases i with _ | _ | i
      · simp only [List.cons_append, List.nil_append, List.set_cons_zero] at h1
        rcases decU8_some h1 with ⟨_, _, rfl⟩ | ⟨_, p, l, h3, h4, h5, _, rfl⟩
        · exact decU8s_off k t y hy k.length (Nat.le_refl _) (by omega) h2 hv
        · obtain ⟨_, _, hp, hl, _⟩ := intForm_some h3
          rcases p with _ | p
          · omega
          · rw [List.drop_succ_cons] at h2
            cases p with
            | zero => exact decU8s_inStep k _ k.length (Nat.le_refl _) h2
            | succ p =>
              rw [List.take_succ_cons, ofBE_cons] at h5
              simp only [List.length_cons] at h4
              exact decU8s_taken k t (p + 1) (by omega) (by rw [rest]; omega) (by rw [rest]; omega) k.length (by omega) (by omega) h2 hv
      · simp only [List.cons_append, List.nil_append, List.set_cons_zero, List.set_cons_succ] at h1
        rw [decU8_cc] at h1
        obtain ⟨_, rfl⟩ := Prod.mk.inj (Option.some.inj h1)
        exact decU8s_inStep k _ k.length (Nat.le_refl _) h2
      · simp only [List.cons_append, List.nil_append, List.set_cons_succ, List.length_cons] at h1 hi
        rw [decU8_cc] at h1
        obtain ⟨_, rfl⟩ := Prod.mk.inj (Option.some.inj h1)
        exact ih (by omega) i (by omega) h2

theorem arrHeader_some {n : Nat} {a : Byte} {t r : List Byte} (h : arrHeader n (a :: t) = some r) :
    (a.toNat = 0x90 + n ∧ r = t) ∨ ∃ p, (a = 0xdc ∧ p = 2 ∨ a = 0xdd ∧ p = 4) ∧ p ≤ t.length ∧ ofBE (t.take p) = n ∧ r = t.drop p := by
  simp only [arrHeader] at h
  split at h
  · rename_i ha
    exact .inl ⟨ha, (Option.some.inj h).symm⟩
  · right
    split at h
    · rename_i ha
      cases h1 : takeN 2 t with
      | none => simp [h1] at h
      | some q =>
        obtain ⟨v, r'⟩ := q
        simp only [h1] at h
        obtain ⟨h3, rfl, rfl⟩ := takeN_some h1
        split at h
        · rename_i hv
          exact ⟨2, .inl ⟨ha, rfl⟩, h3, hv, (Option.some.inj h).symm⟩
        · cases h
    · split at h
      · rename_i ha
        cases h1 : takeN 4 t with
        | none => simp [h1] at h
        | some q =>
          obtain ⟨v, r'⟩ := q
          simp only [h1] at h
          obtain ⟨h3, rfl, rfl⟩ := takeN_some h1
          split at h
          · rename_i hv
            exact ⟨4, .inr ⟨ha, rfl⟩, h3, hv, (Option.some.inj h).symm⟩
          · cases h
      · cases h

theorem arrHeader_own (t : List Byte) : arrHeader 8 (0x98 :: t) = some t := by simp [arrHeader]

theorem beBytes_add (m n v : Nat) : beBytes (m + n) v = beBytes m (v / 256 ^ n) ++ beBytes n v := by
  induction n generalizing v with
  | zero => simp [beBytes]
  | succ n ih => rw [← Nat.add_assoc, beBytes, ih, beBytes, List.append_assoc, Nat.div_div_eq_div_mul, Nat.pow_succ, Nat.mul_comm]

theorem beBytes_small (v : Nat) (h : v < 2 ^ 64) : beBytes 16 v = List.replicate 8 0 ++ beBytes 8 v := by
  rw [beBytes_add 8 8 v, Nat.div_eq_of_lt (by omega)]
  rfl

/-- A byte of an entry with a counter below 2^64 is changed: what follows is not affected. -/
theorem decEntry_set (e : List Byte × U128) (h8 : e.1.length = 8) (hsmall : e.2.toNat < 2 ^ 64) (R : List Byte) (i : Nat) (b : Byte) (hi : i < (encEntry e).length) {e' : List Byte × U128} {r : List Byte}
    (h : decEntry ((encEntry e).set i b ++ R) = some (e', r)) : r = R := by
  obtain ⟨k, v⟩ := e
  simp only at h8 hsmall
  obtain ⟨t, r', ht, h1, h2⟩ := decEntry_some h
  have hn : ∀ X, decU8s 8 X = decU8s k.length X := fun X => by rw [h8]
  have hval : encVal v ++ R = 0xc4 :: 16 :: (List.replicate 8 0 ++ (beBytes 8 v.toNat ++ R)) := by rw [encVal, beBytes_small _ hsmall]; simp
  have hend : r' = 0xc4 :: 16 :: (List.replicate 8 0 ++ (beBytes 8 v.toNat ++ R)) → r = R := by
    rintro rfl
    rw [← hval, decVal_encVal v R] at h2
    exact (Prod.mk.inj (Option.some.inj h2)).2.symm
  have hne : decVal r' ≠ none := by rw [h2]; simp
  generalize e'.1 = kk at h1
  rcases i with _ | i
  · simp only [encEntry, encKey, List.cons_append, List.set_cons_zero, List.append_assoc] at ht
    rw [hval] at ht
    apply hend
    rcases arrHeader_some ht with ⟨_, rfl⟩ | ⟨p, hp, h3, h4, rfl⟩
    · exact decU8s_inStep k _ 8 (by omega) h1
    · exact decU8s_taken k _ p (by omega) h3 (by rw [rest, h4]; decide) 8 (by omega) (by omega) h1 hne
  · simp only [encEntry, encKey, List.cons_append, List.set_cons_succ, List.length_cons, List.length_append, arrHeader_own] at ht hi
    have ht := Option.some.inj ht
    rw [hn] at h1
    rw [List.set_append] at ht
    split at ht
    · rename_i hlt
      rw [← ht, List.append_assoc, hval] at h1
      exact hend (decU8s_set k _ (by omega) i b hlt h1 hne)
    · rename_i hge
      rw [← ht, List.append_assoc, decU8s_enc] at h1
      obtain ⟨rfl, rfl⟩ := Prod.mk.inj (Option.some.inj h1)
      generalize hj : i - (List.flatMap encU8 k).length = j at h2
      obtain ⟨t2, ht2, hl, _, hr⟩ := decVal_some h2
      rcases j with _ | _ | j
      · simp only [encVal, List.set_cons_zero, List.cons_append, List.cons.injEq] at ht2
        obtain ⟨_, _, rfl⟩ := ht2
        rw [hr]
        simp
      · simp only [encVal, List.set_cons_zero, List.set_cons_succ, List.cons_append, List.cons.injEq] at ht2
        obtain ⟨_, _, rfl⟩ := ht2
        rw [hr]
        simp
      · simp only [encVal, List.set_cons_succ, List.cons_append, List.cons.injEq] at ht2
        obtain ⟨_, _, rfl⟩ := ht2
        rw [hr, List.drop_append_of_le_length (by simp), List.drop_of_length_le (by simp)]
        rfl

/-- A byte of some entry is changed: at most this entry is read as another. -/
theorem decEntries_set (l : BlMap) (h8 : ∀ k ∈ l.map Prod.fst, k.length = 8) (hsmall : ∀ e ∈ l, e.2.toNat < 2 ^ 64) (i : Nat) (b : Byte) (hi : i < (l.flatMap encEntry).length) {es : BlMap} {r : List Byte}
    (h : decEntries l.length ((l.flatMap encEntry).set i b) = some (es, r)) : ∃ a e c e', l = a ++ e :: c ∧ es = a ++ e' :: c := by
  induction l generalizing i es with
  | nil => simp at hi
  | cons e l ih =>
    obtain ⟨e1, r1, es1, h1, h2, rfl⟩ := decEntries_succ h
    rw [List.flatMap_cons, List.set_append] at h1
    split at h1
    · rename_i hlt
      have := decEntry_set e (h8 _ (by simp)) (hsmall e (by simp)) _ i b hlt h1
      subst this
      have := decEntries_enc l (fun k hk => h8 k (by simp only [List.map_cons, List.mem_cons]; exact .inr hk)) []
      rw [List.append_nil] at this
      rw [this] at h2
      cases h2
      exact ⟨[], e, l, e1, rfl, rfl⟩
    · rename_i hge
      rw [decEntry_encEntry e (h8 _ (by simp))] at h1
      cases h1
      rw [List.flatMap_cons, List.length_append] at hi
      obtain ⟨a, x, c, x', rfl, rfl⟩ := ih (fun k hk => h8 k (by simp only [List.map_cons, List.mem_cons]; exact .inr hk)) (fun x hx => hsmall x (List.mem_cons_of_mem _ hx)) _ (by omega) h2
      exact ⟨e :: a, x, c, x', rfl, rfl⟩

/-- Another number of entries is asked for. -/
theorem decEntries_count (l : BlMap) (h8 : ∀ k ∈ l.map Prod.fst, k.length = 8) {n : Nat} {es : BlMap} {r : List Byte} (h : decEntries n (l.flatMap encEntry) = some (es, r)) : es = l.take n := by
  induction l generalizing n es with
  | nil =>
    cases n with
    | zero => simp only [decEntries] at h; cases h; rfl
    | succ n => simp [decEntries, decEntry, arrHeader] at h
  | cons e l ih =>
    cases n with
    | zero => simp only [decEntries] at h; cases h; rfl
    | succ n =>
      obtain ⟨e1, r1, es1, h1, h2, rfl⟩ := decEntries_succ h
      rw [List.flatMap_cons, decEntry_encEntry e (h8 _ (by simp))] at h1
      cases h1
      rw [ih (fun k hk => h8 k (by simp only [List.map_cons, List.mem_cons]; exact .inr hk)) h2]
      rfl

theorem decU8_shorter {bs r : List Byte} {b : Byte} (h : decU8 bs = some (b, r)) : r.length + 1 ≤ bs.length := by
  rcases bs with _ | ⟨a, t⟩
  · cases h
  · rcases decU8_some h with ⟨_, _, rfl⟩ | ⟨_, p, l, _, _, _, _, rfl⟩
    · simp
    · simp only [List.length_drop, List.length_cons]; omega

theorem arrHeader_shorter {n : Nat} {bs r : List Byte} (h : arrHeader n bs = some r) : r.length + 1 ≤ bs.length := by
  rcases bs with _ | ⟨a, t⟩
  · cases h
  · rcases arrHeader_some h with ⟨_, rfl⟩ | ⟨p, _, _, _, rfl⟩
    · simp
    · simp only [List.length_drop, List.length_cons]; omega

theorem decU8s_shorter {n : Nat} {bs k r : List Byte} (h : decU8s n bs = some (k, r)) : r.length + n ≤ bs.length := by
  induction n generalizing bs k with
  | zero => simp only [decU8s] at h; cases h; simp
  | succ n ih =>
    obtain ⟨b, r', k', h1, h2, _⟩ := decU8s_succ h
    have := decU8_shorter h1
    have := ih h2
    omega

/-- An entry takes at least 27 bytes. -/
theorem decEntries_shorter {n : Nat} {bs r : List Byte} {es : BlMap} (h : decEntries n bs = some (es, r)) : r.length + 27 * n ≤ bs.length := by
  induction n generalizing bs es with
  | zero => simp only [decEntries] at h; cases h; simp
  | succ n ih =>
    obtain ⟨e, r', es', h1, h2, _⟩ := decEntries_succ h
    obtain ⟨t, r2, h0, h3, h4⟩ := decEntry_some h1
    have := arrHeader_shorter h0
    obtain ⟨t2, rfl, h5, _, rfl⟩ := decVal_some h4
    have := decU8s_shorter h3
    have := ih h2
    simp only [List.length_cons, List.length_drop] at *
    omega

theorem encEntries_length (l : BlMap) (h8 : ∀ k ∈ l.map Prod.fst, k.length = 8) : (l.flatMap encEntry).length ≤ 35 * l.length :=
  flatMap_length_le encEntry 35 l (fun e he => by
    have h8 := h8 e.1 (List.mem_map_of_mem he)
    have := flatMap_length_le encU8 2 e.1 (fun b _ => by unfold encU8; split <;> simp)
    simp only [encEntry, encKey, encVal, List.length_append, List.length_cons, beBytes_length]
    omega)

theorem ofBE_append' (a b : List Byte) : ofBE (a ++ b) = ofBE a * 256 ^ b.length + ofBE b := by
  unfold ofBE
  rw [List.foldl_append, ofBE_foldl]
  rfl

end Ruroco
