import Verif.Model.Bech32m
import Verif.Lemmas.Bech32

namespace Verif.Bech32m
open Verif Verif.PolyMod
open Verif.Base58 (horner horner_append horner_eq horner_lt)

theorem and_mask (x n : Nat) : x &&& (2 ^ n - 1) = x % 2 ^ n := Nat.and_two_pow_sub_one_eq_mod x n

theorem shl_or (a v f : Nat) (hv : v < 2 ^ f) : (a <<< f) ||| v = a * 2 ^ f + v := by
  rw [Nat.shiftLeft_eq, Nat.mul_comm, ← Nat.two_pow_add_eq_or_of_lt hv]

theorem emit_spec (t acc : Nat) (ht : 0 < t) : ∀ (fuel b : Nat), b ≤ fuel →
    (emit t acc fuel b).2 < t ∧ b = t * (emit t acc fuel b).1.length + (emit t acc fuel b).2 ∧
    (∀ d ∈ (emit t acc fuel b).1, d < 2 ^ t) ∧
    acc % 2 ^ b = horner (2 ^ t) 0 (emit t acc fuel b).1 * 2 ^ (emit t acc fuel b).2
      + acc % 2 ^ (emit t acc fuel b).2
  | 0, b, hb => by
    have : b = 0 := by omega
    subst this
    simp [emit, horner, ht]
  | fuel + 1, b, hb => by
    unfold emit
    by_cases h : b ≥ t
    · obtain ⟨h1, h2, h3, h4⟩ := emit_spec t acc ht fuel (b - t) (by omega)
      simp only [h, if_true]
      set r := emit t acc fuel (b - t) with hr
      refine ⟨h1, ?_, ?_, ?_⟩
      · rw [List.length_cons, Nat.mul_add]; omega
      · intro d hd
        rcases List.mem_cons.mp hd with rfl | hd
        · rw [and_mask]; exact Nat.mod_lt _ (by positivity)
        · exact h3 d hd
      · rw [and_mask, Nat.shiftRight_eq_div_pow]
        simp only [horner, Nat.mul_zero, Nat.zero_add]
        rw [horner_eq]
        have e1 : acc % 2 ^ b = (acc / 2 ^ (b - t) % 2 ^ t) * 2 ^ (b - t) + acc % 2 ^ (b - t) := by
          have : b = (b - t) + t := by omega
          conv_lhs => rw [this, pow_add, Nat.mod_mul]
          ring
        have e2 : horner (2 ^ t) 0 r.1 = Nat.ofDigits (2 ^ t) r.1.reverse := by
          rw [horner_eq]; simp
        rw [e1, h4, e2]
        have e3 : 2 ^ (b - t) = (2 ^ t) ^ r.1.length * 2 ^ r.2 := by
          conv_lhs => rw [h2]
          rw [pow_add, pow_mul]
        rw [e3]; ring
    · simp only [h, if_false]
      refine ⟨by omega, by simp, by simp, by simp [horner]⟩

theorem convLoop_spec (f t : Nat) (ht : 0 < t) : ∀ (data : List Nat) (acc bits : Nat), bits < t →
    (∀ v ∈ data, v < 2 ^ f) →
    (convLoop f t acc bits data).2.2 < t ∧
    bits + f * data.length = t * (convLoop f t acc bits data).1.length + (convLoop f t acc bits data).2.2 ∧
    (∀ d ∈ (convLoop f t acc bits data).1, d < 2 ^ t) ∧
    horner (2 ^ f) (acc % 2 ^ bits) data =
      horner (2 ^ t) 0 (convLoop f t acc bits data).1 * 2 ^ (convLoop f t acc bits data).2.2
        + (convLoop f t acc bits data).2.1 % 2 ^ (convLoop f t acc bits data).2.2
  | [], acc, bits, hb, _ => by simp [convLoop, horner, hb]
  | v :: vs, acc, bits, hb, hv => by
    set acc' := ((acc <<< f) ||| v) &&& (2 ^ (f + t - 1) - 1) with hacc
    obtain ⟨e1, e2, e3, e4⟩ := emit_spec t acc' ht (bits + f) (bits + f) (le_refl _)
    set e := emit t acc' (bits + f) (bits + f) with he
    obtain ⟨r1, r2, r3, r4⟩ := convLoop_spec f t ht vs acc' e.2 e1 (fun w hw => hv w (by simp [hw]))
    set r := convLoop f t acc' e.2 vs with hr
    have hstep : convLoop f t acc bits (v :: vs) = (e.1 ++ r.1, r.2) := rfl
    rw [hstep]
    have hvf := hv v (by simp)
    have hacc' : acc' % 2 ^ (bits + f) = (acc % 2 ^ bits) * 2 ^ f + v := by
      rw [hacc, and_mask, shl_or _ _ _ hvf]
      rw [Nat.mod_mod_of_dvd _ (pow_dvd_pow 2 (by omega)), pow_add, Nat.mul_comm (2 ^ bits)]
      rw [Nat.mul_comm (2 ^ f) (2 ^ bits), Bech32.mul_add_mod_mul hvf]
    refine ⟨r1, ?_, ?_, ?_⟩
    · simp only [List.length_append, List.length_cons, Nat.mul_add]
      omega
    · intro d hd
      rcases List.mem_append.mp hd with hd | hd
      · exact e3 d hd
      · exact r3 d hd
    · show horner (2 ^ f) (acc % 2 ^ bits) (v :: vs) = _
      simp only [horner]
      rw [Nat.mul_comm (2 ^ f), ← hacc', e4, horner_append, horner_eq (2 ^ t) r.1]
      rw [horner_eq (2 ^ f)] at r4 ⊢
      have h0 : horner (2 ^ t) 0 r.1 = Nat.ofDigits (2 ^ t) r.1.reverse := by rw [horner_eq]; simp
      rw [h0] at r4
      have hp : 2 ^ e.2 * (2 ^ f) ^ vs.length = (2 ^ t) ^ r.1.length * 2 ^ r.2.2 := by
        rw [← pow_mul, ← pow_mul, ← pow_add, ← pow_add, r2]
      calc (horner (2 ^ t) 0 e.1 * 2 ^ e.2 + acc' % 2 ^ e.2) * (2 ^ f) ^ vs.length + Nat.ofDigits (2 ^ f) vs.reverse
          = horner (2 ^ t) 0 e.1 * (2 ^ e.2 * (2 ^ f) ^ vs.length)
            + (acc' % 2 ^ e.2 * (2 ^ f) ^ vs.length + Nat.ofDigits (2 ^ f) vs.reverse) := by ring
        _ = _ := by rw [hp, r4]; ring

theorem horner_inj {b : Nat} (hb : 1 < b) : ∀ (u v : List Nat), u.length = v.length → (∀ d ∈ u, d < b) →
    (∀ d ∈ v, d < b) → horner b 0 u = horner b 0 v → u = v := by
  intro u v hl hu hv h
  rw [horner_eq, horner_eq] at h
  simp only [Nat.zero_mul, Nat.zero_add] at h
  have := Nat.ofDigits_inj_of_len_eq hb (by simpa using hl) (by simpa using hu) (by simpa using hv) h
  exact List.reverse_injective this

/-- Regrouping 8 to 5 bits with padding: length, range and value. -/
theorem conv85 (data : List Nat) (hd : ∀ v ∈ data, v < 256) :
    ∃ c, convertbits data 8 5 true = .ok c ∧ c.length = (8 * data.length + 4) / 5 ∧ (∀ v ∈ c, v < 32) ∧
      horner 32 0 c = horner 256 0 data * 2 ^ (5 * c.length - 8 * data.length) := by
  obtain ⟨h1, h2, h3, h4⟩ := convLoop_spec 8 5 (by omega) data 0 0 (by omega) (by simpa using hd)
  set r := convLoop 8 5 0 0 data with hr
  have h4' : horner 256 0 data = horner 32 0 r.1 * 2 ^ r.2.2 + r.2.1 % 2 ^ r.2.2 := by simpa using h4
  have h3' : ∀ d ∈ r.1, d < 32 := by simpa using h3
  unfold convertbits
  simp only [← hr, if_true]
  by_cases hb : r.2.2 > 0
  · rw [if_pos hb]
    have hlen : (r.1 ++ [(r.2.1 <<< (5 - r.2.2)) &&& (2 ^ 5 - 1)]).length = (8 * data.length + 4) / 5 := by
      simp only [List.length_append, List.length_singleton]; omega
    refine ⟨_, rfl, hlen, ?_, ?_⟩
    · intro v hv
      rcases List.mem_append.mp hv with hv | hv
      · exact h3' v hv
      · rw [List.mem_singleton] at hv; rw [hv, and_mask]; exact Nat.mod_lt _ (by norm_num)
    · rw [hlen]
      have e : 5 * ((8 * data.length + 4) / 5) - 8 * data.length = 5 - r.2.2 := by omega
      rw [e, horner_append, h4', and_mask, Nat.shiftLeft_eq]
      have e5 : 2 ^ 5 = 2 ^ r.2.2 * 2 ^ (5 - r.2.2) := by rw [← pow_add]; congr 1; omega
      simp only [horner]
      rw [e5, Nat.mul_mod_mul_right, show (32 : Nat) = 2 ^ r.2.2 * 2 ^ (5 - r.2.2) from e5 ▸ rfl]
      ring
  · rw [if_neg hb]
    have hb0 : r.2.2 = 0 := by omega
    refine ⟨_, rfl, by omega, h3', ?_⟩
    have e : 5 * r.1.length - 8 * data.length = 0 := by omega
    rw [e, h4', hb0]; simp [Nat.mod_one]

/-- Regrouping back gives the original bytes. -/
theorem conv58 (data c : List Nat) (hd : ∀ v ∈ data, v < 256) (hl : c.length = (8 * data.length + 4) / 5)
    (hc : ∀ v ∈ c, v < 32) (hv : horner 32 0 c = horner 256 0 data * 2 ^ (5 * c.length - 8 * data.length)) :
    convertbits c 5 8 false = .ok data := by
  obtain ⟨h1, h2, h3, h4⟩ := convLoop_spec 5 8 (by omega) c 0 0 (by omega) (by simpa using hc)
  set r := convLoop 5 8 0 0 c with hr
  have h4' : horner 32 0 c = horner 256 0 r.1 * 2 ^ r.2.2 + r.2.1 % 2 ^ r.2.2 := by simpa using h4
  have h3' : ∀ d ∈ r.1, d < 256 := by simpa using h3
  have hb : r.2.2 = 5 * c.length - 8 * data.length := by omega
  have hlen : r.1.length = data.length := by omega
  rw [hv, ← hb] at h4'
  have hp : 0 < 2 ^ r.2.2 := by positivity
  have hlt := Nat.mod_lt r.2.1 hp
  have hz : r.2.1 % 2 ^ r.2.2 = 0 := by
    have := congrArg (· % 2 ^ r.2.2) h4'
    simp only [Nat.mul_mod_left, Nat.mul_add_mod_self_right, Nat.mod_mod] at this
    exact this.symm
  rw [hz, Nat.add_zero] at h4'
  have hval := Nat.eq_of_mul_eq_mul_right hp h4'
  have := horner_inj (b := 256) (by omega) _ _ hlen.symm hd h3' hval
  unfold convertbits
  simp only [← hr]
  rw [if_neg (by simp), if_neg (by omega), if_neg]
  · rw [this]
  · rw [not_not, and_mask, Nat.shiftLeft_eq]
    have e8 : 2 ^ 8 = 2 ^ r.2.2 * 2 ^ (8 - r.2.2) := by rw [← pow_add]; congr 1; omega
    rw [e8, Nat.mul_mod_mul_right, hz, Nat.zero_mul]

theorem hrpExpand_lt (p : Bytes) : ∀ v ∈ hrpExpand p, v < 32 := by
  intro v hv
  unfold hrpExpand at hv
  simp only [List.mem_append, List.mem_map, List.mem_singleton] at hv
  rcases hv with (⟨c, _, rfl⟩ | rfl) | ⟨c, _, rfl⟩
  · rw [Nat.shiftRight_eq_div_pow]; have := c.toNat_lt; omega
  · omega
  · have : (31 : Nat) = 2 ^ 5 - 1 := rfl
    rw [this, and_mask]; exact Nat.mod_lt _ (by norm_num)

/-- The checksum written makes verification answer the same variant. -/
theorem verify_create (p : Bytes) (data : List Nat) (hd : ∀ v ∈ data, v < 32) (spec : Spec) :
    verifyChecksum p (data ++ createChecksum p data spec) = some spec := by
  have hx : ∀ v ∈ hrpExpand p ++ data, v < 32 := by
    intro v hv
    rcases List.mem_append.mp hv with h | h
    · exact hrpExpand_lt p v h
    · exact hd v h
  unfold verifyChecksum createChecksum polymod
  rw [← List.append_assoc]
  cases spec with
  | bech32 =>
    have h := run_checksum fit_bech32 _ hx 6 1 rfl (by decide)
    simp only [if_neg (by decide : ¬ Spec.bech32 = Spec.bech32m)]
    rw [h]; rfl
  | bech32m =>
    have h := run_checksum fit_bech32 _ hx 6 bech32mConst rfl (by decide)
    simp only [if_true]
    rw [h]; rfl

/-- Human-readable parts the decoder can give back: printable, no upper case. -/
def IsHrp (p : Bytes) : Prop := p ≠ [] ∧ ∀ c ∈ p, 33 ≤ c ∧ c ≤ 126 ∧ toLower c = c

theorem stdChar (v : Fin 32) : ∃ c, Bech32.stdAlphabet[v.val]? = some c ∧ c ∈ Bech32.stdAlphabet ∧
    Bech32.stdAlphabet.idxOf c = v.val ∧ toLower c = c ∧ c ≠ 0x31 := by
  revert v; decide +kernel

theorem stdChars (vs : List Nat) (hv : ∀ v ∈ vs, v < 32) : ∃ cs, Bech32.toChars Bech32.stdAlphabet vs = .ok cs ∧
    cs.length = vs.length ∧ revAll Bech32.stdAlphabet cs = some vs ∧ ∀ c ∈ cs, toLower c = c ∧ c ≠ 0x31 := by
  induction vs with
  | nil => exact ⟨[], rfl, rfl, rfl, by simp⟩
  | cons v vs ih =>
    obtain ⟨cs, h1, h2, h3, h4⟩ := ih (fun w hw => hv w (by simp [hw]))
    obtain ⟨c, g1, g2, g3, g4, g5⟩ := stdChar ⟨v, hv v (by simp)⟩
    refine ⟨c :: cs, ?_, by simp [h2], ?_, ?_⟩
    · simp only at g1
      simp [Bech32.toChars, index, g1, h1]
    · simp [revAll, g2, h3, g3]
    · intro d hd
      rcases List.mem_cons.mp hd with rfl | hd
      · exact ⟨g4, g5⟩
      · exact h4 d hd

theorem map_toLower (s : Bytes) (h : ∀ c ∈ s, toLower c = c) : s.map toLower = s := by
  induction s with
  | nil => rfl
  | cons a s ih => rw [List.map_cons, h a (by simp), ih (fun c hc => h c (by simp [hc]))]

theorem lastSep_append (p cs : Bytes) (hcs : ∀ c ∈ cs, c ≠ 0x31) : lastSep (p ++ [0x31] ++ cs) = some p.length := by
  unfold lastSep
  rw [if_pos (by simp)]
  congr 1
  have : (p ++ [0x31] ++ cs).reverse = cs.reverse ++ (0x31 :: p.reverse) := by simp
  rw [this, List.idxOf_append, if_neg (by
    intro h; exact hcs _ (by simpa using h) rfl)]
  simp

theorem decode_encode (p : Bytes) (hp : IsHrp p) (data : List Nat) (hd : ∀ v ∈ data, v < 32) (spec : Spec)
    (hlen : p.length + 1 + data.length + 6 ≤ 90) :
    ∃ t, encode p data spec Bech32.stdAlphabet = .ok t ∧ t.length = p.length + 1 + data.length + 6 ∧
      decode t Bech32.stdAlphabet = .ok (p, data, spec) := by
  have hck : (createChecksum p data spec).length = 6 := symbolsOf_length _ _
  obtain ⟨cs, h1, h2, h3, h4⟩ := stdChars (data ++ createChecksum p data spec) (by
    intro v hv
    rcases List.mem_append.mp hv with h | h
    · exact hd v h
    · exact symbolsOf_lt _ _ v h)
  have hcl : cs.length = data.length + 6 := by rw [h2]; simp [hck]
  have hlow : (p ++ [0x31] ++ cs).map toLower = p ++ [0x31] ++ cs := by
    apply map_toLower
    intro c hc
    simp only [List.mem_append, List.mem_singleton] at hc
    rcases hc with (h | h) | h
    · exact (hp.2 c h).2.2
    · subst h; decide
    · exact (h4 c h).1
  have htl : (p ++ [0x31] ++ cs).length = p.length + 1 + data.length + 6 := by simp [hcl]; omega
  refine ⟨p ++ [0x31] ++ cs, by unfold encode; rw [h1], htl, ?_⟩
  have hpl : 1 ≤ p.length := by
    rcases p with _ | ⟨a, b⟩
    · exact absurd rfl hp.1
    · simp
  unfold decode
  rw [if_neg (by omega), if_neg (by simp only [hlow, ne_eq, not_true, false_and, not_false_iff])]
  simp only [hlow]
  rw [lastSep_append p cs (fun c hc => (h4 c hc).2)]
  simp only
  rw [if_neg (by omega), if_neg (by omega)]
  have ht : (p ++ [0x31] ++ cs).take p.length = p := by simp
  have hdr : (p ++ [0x31] ++ cs).drop (p.length + 1) = cs := by
    rw [List.drop_append_of_le_length (by simp)]; simp
  rw [ht, hdr]
  have hany : p.any (fun c => decide (c < 33) || decide (c > 126)) = false := by
    rw [List.any_eq_false]
    intro c hc
    obtain ⟨a, b, _⟩ := hp.2 c hc
    simp only [Bool.or_eq_true, decide_eq_true_eq, not_or, UInt8.lt_iff_toNat_lt, UInt8.le_iff_toNat_le, gt_iff_lt] at a b ⊢
    omega
  rw [hany, h3]
  simp only [Bool.false_eq_true, if_false]
  rw [verify_create p data hd spec]
  simp [hck]

theorem bytes_lt (b : Bytes) : ∀ v ∈ b.map UInt8.toNat, v < 256 := by
  intro v hv
  obtain ⟨c, _, rfl⟩ := List.mem_map.mp hv
  exact c.toNat_lt

theorem roundtrip (p payload : Bytes) (hp : IsHrp p) (hlen : p.length + 1 + (8 * payload.length + 4) / 5 + 6 ≤ 90) :
    ∃ t, bech32mEncode p payload Bech32.stdAlphabet = .ok t ∧
      t.length = p.length + 1 + (8 * payload.length + 4) / 5 + 6 ∧
      bech32mDecode t p Bech32.stdAlphabet = .ok (some payload) := by
  obtain ⟨c, c1, c2, c3, c4⟩ := conv85 (payload.map UInt8.toNat) (bytes_lt payload)
  simp only [List.length_map] at c2 c4
  obtain ⟨t, t1, t2, t3⟩ := decode_encode p hp c c3 .bech32m (by omega)
  refine ⟨t, ?_, by rw [t2, c2], ?_⟩
  · unfold bech32mEncode
    rw [c1]; exact t1
  · unfold bech32mDecode
    rw [t3]
    simp only [Res.bind_ok]
    rw [if_neg (by simp), conv58 (payload.map UInt8.toNat) c (bytes_lt payload) (by simpa using c2) c3 (by simpa using c4)]
    simp only [Res.bind_ok]
    congr 2
    rw [List.map_map]
    conv_rhs => rw [← List.map_id payload]
    congr 1
    funext x
    simp

end Verif.Bech32m
