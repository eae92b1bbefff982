import Verif.Spec.Bytom
import Verif.Lemmas.Bech32m
import Verif.Lemmas.AddressPanic
import Verif.Props.Bch

/-! Lemmas on the Bech32 code of `bytomTransaction`. -/

namespace Verif.Bytom
open Verif Verif.PolyMod
open Verif.Base58 (horner horner_append horner_eq horner_lt)

theorem convByte_spec (t : Nat) (ht : 0 < t) (ht8 : t ≤ 8) : ∀ (fuel v rem next filled : Nat), rem ≤ fuel → rem ≤ 8 → v < 2 ^ rem →
    filled < t → next < 2 ^ filled →
    ∃ out next' filled', convByte t fuel (v * 2 ^ (8 - rem)) rem next filled = (out, next', filled') ∧
      filled' < t ∧ next' < 2 ^ filled' ∧ filled + rem = t * out.length + filled' ∧ (∀ d ∈ out, d < 2 ^ t) ∧
      next * 2 ^ rem + v = horner (2 ^ t) 0 out * 2 ^ filled' + next'
  | 0, v, rem, next, filled, hf, _, hv, hfl, hn => by
    have : rem = 0 := by omega
    subst this
    refine ⟨[], next, filled, rfl, hfl, hn, by simp, by simp, ?_⟩
    simp only [pow_zero] at hv ⊢
    simp [horner]; omega
  | fuel + 1, v, rem, next, filled, hf, h8, hv, hfl, hn => by
    unfold convByte
    by_cases hr : rem > 0
    · rw [if_pos hr]
      set e := if t - filled < rem then t - filled else rem with he
      have he1 : 1 ≤ e ∧ e ≤ rem ∧ filled + e ≤ t := by rw [he]; split <;> omega
      obtain ⟨e1, e2, e3⟩ := he1
      have hshl : (next <<< e) % 256 = next * 2 ^ e := by
        rw [Nat.shiftLeft_eq]
        apply Nat.mod_eq_of_lt
        calc next * 2 ^ e < 2 ^ filled * 2 ^ e := Nat.mul_lt_mul_of_pos_right hn (by positivity)
          _ = 2 ^ (filled + e) := (pow_add _ _ _).symm
          _ ≤ 2 ^ 8 := Nat.pow_le_pow_right (by omega) (by omega)
      have hshr : (v * 2 ^ (8 - rem)) >>> (8 - e) = v / 2 ^ (rem - e) := by
        rw [Nat.shiftRight_eq_div_pow]
        have : 2 ^ (8 - e) = 2 ^ (rem - e) * 2 ^ (8 - rem) := by rw [← pow_add]; congr 1; omega
        rw [this, Nat.mul_div_mul_right _ _ (by positivity)]
      have hb : ((v * 2 ^ (8 - rem)) <<< e) % 256 = (v % 2 ^ (rem - e)) * 2 ^ (8 - (rem - e)) := by
        rw [Nat.shiftLeft_eq, Nat.mul_assoc, ← pow_add]
        have h1 : 8 - rem + e = 8 - (rem - e) := by omega
        have h2 : (256 : Nat) = 2 ^ (rem - e) * 2 ^ (8 - (rem - e)) := by
          rw [← pow_add, show rem - e + (8 - (rem - e)) = 8 by omega]; rfl
        rw [h1, h2, Nat.mul_mod_mul_right]
      have htop : v / 2 ^ (rem - e) < 2 ^ e := by
        rw [Nat.div_lt_iff_lt_mul (by positivity), ← pow_add]
        have : e + (rem - e) = rem := by omega
        rw [this]; exact hv
      have hor : (next * 2 ^ e) ||| (v / 2 ^ (rem - e)) = next * 2 ^ e + v / 2 ^ (rem - e) := by
        rw [← Nat.shiftLeft_eq, Bech32m.shl_or _ _ _ htop, Nat.shiftLeft_eq]
      have hnext : next * 2 ^ e + v / 2 ^ (rem - e) < 2 ^ (filled + e) := by
        rw [pow_add]
        have : next + 1 ≤ 2 ^ filled := hn
        calc next * 2 ^ e + v / 2 ^ (rem - e) < next * 2 ^ e + 2 ^ e := by omega
          _ = (next + 1) * 2 ^ e := by ring
          _ ≤ _ := Nat.mul_le_mul_right _ this
      have hlow : v % 2 ^ (rem - e) < 2 ^ (rem - e) := Nat.mod_lt _ (by positivity)
      have hsum : next * 2 ^ rem + v = (next * 2 ^ e + v / 2 ^ (rem - e)) * 2 ^ (rem - e) + v % 2 ^ (rem - e) := by
        have h1 := Nat.div_add_mod v (2 ^ (rem - e))
        have h2 : 2 ^ rem = 2 ^ e * 2 ^ (rem - e) := by rw [← pow_add]; congr 1; omega
        rw [h2]
        conv_lhs => rw [← h1]
        ring
      simp only [hshl, hshr, hb, hor]
      by_cases hfull : filled + e = t
      · rw [if_pos hfull]
        obtain ⟨out, n', f', g1, g2, g3, g4, g5, g6⟩ := convByte_spec t ht ht8 fuel (v % 2 ^ (rem - e)) (rem - e) 0 0 (by omega) (by omega) hlow
          ht (by simp)
        rw [g1]
        refine ⟨_, _, _, rfl, g2, g3, ?_, ?_, ?_⟩
        · simp only [List.length_cons, Nat.mul_add]; omega
        · intro d hd
          rcases List.mem_cons.mp hd with rfl | hd
          · rw [← hfull]; exact hnext
          · exact g5 d hd
        · simp only [horner, Nat.mul_zero, Nat.zero_add, Nat.zero_mul] at g6 ⊢
          rw [hsum, g6, horner_eq (2 ^ t) out (_ + _)]
          have h0 : horner (2 ^ t) 0 out = Nat.ofDigits (2 ^ t) out.reverse := by rw [horner_eq]; simp
          rw [h0]
          have hp : 2 ^ (rem - e) = (2 ^ t) ^ out.length * 2 ^ f' := by rw [← pow_mul, ← pow_add, ← g4]; congr 1; omega
          rw [hp]; ring
      · rw [if_neg hfull]
        obtain ⟨out, n', f', g1, g2, g3, g4, g5, g6⟩ := convByte_spec t ht ht8 fuel (v % 2 ^ (rem - e)) (rem - e)
          (next * 2 ^ e + v / 2 ^ (rem - e)) (filled + e) (by omega) (by omega) hlow (by omega) hnext
        rw [g1]
        refine ⟨_, _, _, rfl, g2, g3, by omega, g5, ?_⟩
        rw [hsum, g6]
    · rw [if_neg hr]
      have : rem = 0 := by omega
      subst this
      refine ⟨[], next, filled, rfl, hfl, hn, by simp, by simp, ?_⟩
      simp only [pow_zero] at hv ⊢
      simp [horner]; omega

theorem convLoop_spec (f t : Nat) (hf8 : f ≤ 8) (ht : 0 < t) (ht8 : t ≤ 8) : ∀ (data : List Nat) (next filled : Nat), filled < t →
    next < 2 ^ filled → (∀ v ∈ data, v < 2 ^ f) →
    ∃ out next' filled', convLoop f t data next filled = (out, next', filled') ∧ filled' < t ∧ next' < 2 ^ filled' ∧
      filled + f * data.length = t * out.length + filled' ∧ (∀ d ∈ out, d < 2 ^ t) ∧
      horner (2 ^ f) next data = horner (2 ^ t) 0 out * 2 ^ filled' + next'
  | [], next, filled, hfl, hn, _ => ⟨[], next, filled, rfl, hfl, hn, by simp, by simp, by simp [horner]⟩
  | v :: vs, next, filled, hfl, hn, hv => by
    have hvf := hv v (by simp)
    have hshl : (v <<< (8 - f)) % 256 = v * 2 ^ (8 - f) := by
      rw [Nat.shiftLeft_eq]
      apply Nat.mod_eq_of_lt
      calc v * 2 ^ (8 - f) < 2 ^ f * 2 ^ (8 - f) := Nat.mul_lt_mul_of_pos_right hvf (by positivity)
        _ = 2 ^ 8 := by rw [← pow_add]; congr 1; omega
    obtain ⟨o1, n1, f1, a1, a2, a3, a4, a5, a6⟩ := convByte_spec t ht ht8 f v f next filled (le_refl _) hf8 hvf hfl hn
    obtain ⟨o2, n2, f2, b1, b2, b3, b4, b5, b6⟩ := convLoop_spec f t hf8 ht ht8 vs n1 f1 a2 a3 (fun w hw => hv w (by simp [hw]))
    refine ⟨o1 ++ o2, n2, f2, ?_, b2, b3, ?_, ?_, ?_⟩
    · simp only [convLoop, hshl, a1, b1]
    · simp only [List.length_append, List.length_cons, Nat.mul_add]; omega
    · intro d hd
      rcases List.mem_append.mp hd with h | h
      · exact a5 d h
      · exact b5 d h
    · simp only [horner]
      rw [Nat.mul_comm (2 ^ f), a6, horner_append, horner_eq (2 ^ t) o2]
      rw [horner_eq (2 ^ f)] at b6 ⊢
      have h0 : horner (2 ^ t) 0 o2 = Nat.ofDigits (2 ^ t) o2.reverse := by rw [horner_eq]; simp
      rw [h0] at b6
      have hp : 2 ^ f1 * (2 ^ f) ^ vs.length = (2 ^ t) ^ o2.length * 2 ^ f2 := by
        rw [← pow_mul, ← pow_mul, ← pow_add, ← pow_add, b4]
      calc (horner (2 ^ t) 0 o1 * 2 ^ f1 + n1) * (2 ^ f) ^ vs.length + Nat.ofDigits (2 ^ f) vs.reverse
          = horner (2 ^ t) 0 o1 * (2 ^ f1 * (2 ^ f) ^ vs.length) + (n1 * (2 ^ f) ^ vs.length + Nat.ofDigits (2 ^ f) vs.reverse) := by ring
        _ = _ := by rw [hp, b6]; ring

/-- Regrouping 8 to 5 bits with padding. -/
theorem conv85 (data : List Nat) (hd : ∀ v ∈ data, v < 256) :
    ∃ c, convertBits data 8 5 true = .ok c ∧ c.length = (8 * data.length + 4) / 5 ∧ (∀ v ∈ c, v < 32) ∧
      horner 32 0 c = horner 256 0 data * 2 ^ (5 * c.length - 8 * data.length) := by
  obtain ⟨o, n, f, h0, h1, hn, h2, h3, h4⟩ := convLoop_spec 8 5 (by omega) (by omega) (by omega) data 0 0 (by omega) (by simp) (by simpa using hd)
  have h4' : horner 256 0 data = horner 32 0 o * 2 ^ f + n := by simpa using h4
  have h3' : ∀ d ∈ o, d < 32 := by simpa using h3
  unfold convertBits
  rw [if_neg (by omega)]
  simp only [h0]
  by_cases hb : f > 0
  · rw [if_pos ⟨trivial, hb⟩]
    have hlast : (n <<< (5 - f)) % 256 = n * 2 ^ (5 - f) ∧ n * 2 ^ (5 - f) < 32 := by
      have : n * 2 ^ (5 - f) < 32 := by
        calc n * 2 ^ (5 - f) < 2 ^ f * 2 ^ (5 - f) := Nat.mul_lt_mul_of_pos_right hn (by positivity)
          _ = 2 ^ 5 := by rw [← pow_add]; congr 1; omega
      rw [Nat.shiftLeft_eq, Nat.mod_eq_of_lt (by omega)]
      exact ⟨rfl, this⟩
    rw [hlast.1]
    have hlen : (o ++ [n * 2 ^ (5 - f)]).length = (8 * data.length + 4) / 5 := by
      simp only [List.length_append, List.length_singleton]; omega
    refine ⟨_, rfl, hlen, ?_, ?_⟩
    · intro v hv
      rcases List.mem_append.mp hv with hv | hv
      · exact h3' v hv
      · rw [List.mem_singleton] at hv; rw [hv]; exact hlast.2
    · rw [hlen]
      have e : 5 * ((8 * data.length + 4) / 5) - 8 * data.length = 5 - f := by omega
      rw [e, horner_append, h4']
      have e5 : (32 : Nat) = 2 ^ f * 2 ^ (5 - f) := by rw [← pow_add, show f + (5 - f) = 5 by omega]; rfl
      simp only [horner]
      conv_lhs => rw [show 32 * horner 32 0 o = (2 ^ f * 2 ^ (5 - f)) * horner 32 0 o from by rw [← e5]]
      ring
  · rw [if_neg (by simp [hb]), if_neg (by simp [hb])]
    have hb0 : f = 0 := by omega
    subst hb0
    refine ⟨_, rfl, by omega, h3', ?_⟩
    have e : 5 * o.length - 8 * data.length = 0 := by omega
    have : n = 0 := by simpa using hn
    rw [e, h4', this]; simp

/-- Regrouping back gives the original bytes. -/
theorem conv58 (data c : List Nat) (hd : ∀ v ∈ data, v < 256) (hl : c.length = (8 * data.length + 4) / 5)
    (hc : ∀ v ∈ c, v < 32) (hv : horner 32 0 c = horner 256 0 data * 2 ^ (5 * c.length - 8 * data.length)) :
    convertBits c 5 8 false = .ok data := by
  obtain ⟨o, n, f, h0, h1, hn, h2, h3, h4⟩ := convLoop_spec 5 8 (by omega) (by omega) (by omega) c 0 0 (by omega) (by simp) (by simpa using hc)
  have h4' : horner 32 0 c = horner 256 0 o * 2 ^ f + n := by simpa using h4
  have h3' : ∀ d ∈ o, d < 256 := by simpa using h3
  have hb : f = 5 * c.length - 8 * data.length := by omega
  have hlen : o.length = data.length := by omega
  rw [hv, ← hb] at h4'
  have hp : 0 < 2 ^ f := by positivity
  have hz : n = 0 := by
    have := congrArg (· % 2 ^ f) h4'
    simp only [Nat.mul_mod_left, Nat.mul_add_mod_self_right, Nat.mod_eq_of_lt hn] at this
    exact this.symm
  subst hz
  have hval := Nat.eq_of_mul_eq_mul_right hp (by simpa using h4')
  have := Bech32m.horner_inj (b := 256) (by omega) _ _ hlen.symm hd h3' hval
  unfold convertBits
  rw [if_neg (by omega)]
  simp only [h0]
  rw [if_neg (by simp), if_neg (by simp; omega), this]

/-- The text of symbols. -/
def chars (vs : List Nat) : Bytes := vs.map (fun s => (asc "qpzry9x8gf2tvdw0s3jn54khce6mua7l").getD s 0)

theorem char_ok (v : Fin 32) : Bech32.stdAlphabet[v.val]? = some ((asc "qpzry9x8gf2tvdw0s3jn54khce6mua7l").getD v.val 0) ∧
    (asc "qpzry9x8gf2tvdw0s3jn54khce6mua7l").getD v.val 0 ∈ Bech32.stdAlphabet ∧
    Bech32.stdAlphabet.idxOf ((asc "qpzry9x8gf2tvdw0s3jn54khce6mua7l").getD v.val 0) = v.val ∧
    Bech32m.toLower ((asc "qpzry9x8gf2tvdw0s3jn54khce6mua7l").getD v.val 0) = (asc "qpzry9x8gf2tvdw0s3jn54khce6mua7l").getD v.val 0 ∧
    (asc "qpzry9x8gf2tvdw0s3jn54khce6mua7l").getD v.val 0 ≠ 0x31 ∧
    (decide ((asc "qpzry9x8gf2tvdw0s3jn54khce6mua7l").getD v.val 0 < 33) ||
      decide ((asc "qpzry9x8gf2tvdw0s3jn54khce6mua7l").getD v.val 0 > 126)) = false := by
  revert v; decide +kernel

theorem chars_ok (vs : List Nat) (hv : ∀ v ∈ vs, v < 32) : toChars vs = .ok (chars vs) ∧ Bech32m.revAll Bech32.stdAlphabet (chars vs) = some vs ∧
    ∀ c ∈ chars vs, Bech32m.toLower c = c ∧ c ≠ 0x31 ∧ (decide (c < 33) || decide (c > 126)) = false := by
  induction vs with
  | nil => exact ⟨rfl, rfl, by simp [chars]⟩
  | cons v vs ih =>
    obtain ⟨h1, h2, h3⟩ := ih (fun w hw => hv w (by simp [hw]))
    obtain ⟨g1, g2, g3, g4, g5, g6⟩ := char_ok ⟨v, hv v (by simp)⟩
    have hc : chars (v :: vs) = (asc "qpzry9x8gf2tvdw0s3jn54khce6mua7l").getD v 0 :: chars vs := rfl
    rw [hc]
    simp only at g1 g2 g3 g4 g5 g6
    generalize (asc "qpzry9x8gf2tvdw0s3jn54khce6mua7l").getD v 0 = c at *
    refine ⟨by simp only [toChars, g1, h1], ?_, ?_⟩
    · unfold Bech32m.revAll
      rw [if_pos g2, h2, g3]
    · intro d hd
      rcases List.mem_cons.mp hd with rfl | hd
      · exact ⟨g4, g5, g6⟩
      · exact h3 d hd

theorem bech32Decode_of (p : Bytes) (hp : Bech32m.IsHrp p) (data check : List Nat) (hd : ∀ v ∈ data ++ check, v < 32) (hck : check.length = 6)
    (hlen : p.length + 1 + data.length + 6 ≤ 90) (hv : Bech32m.polymod (Bech32m.hrpExpand p ++ (data ++ check)) = 1) :
    bech32Decode (p ++ [0x31] ++ chars (data ++ check)) = .ok (p, data) := by
  obtain ⟨_, h3, h4⟩ := chars_ok _ hd
  have hcl : (chars (data ++ check)).length = data.length + 6 := by simp [chars, hck]
  generalize hcs : chars (data ++ check) = cs at *
  have hlow : (p ++ [0x31] ++ cs).map Bech32m.toLower = p ++ [0x31] ++ cs := by
    apply Bech32m.map_toLower
    intro c hc
    simp only [List.mem_append, List.mem_singleton] at hc
    rcases hc with (h | h) | h
    · exact (hp.2 c h).2.2
    · subst h; decide
    · exact (h4 c h).1
  have htl : (p ++ [0x31] ++ cs).length = p.length + 1 + data.length + 6 := by simp [hcl]; omega
  have hpl : 1 ≤ p.length := by
    rcases p with _ | ⟨a, b⟩
    · exact absurd rfl hp.1
    · simp
  have hany : (p ++ [0x31] ++ cs).any (fun c => decide (c < 33) || decide (c > 126)) = false := by
    rw [List.any_eq_false]
    intro c hc
    simp only [List.mem_append, List.mem_singleton] at hc
    rcases hc with (h | h) | h
    · obtain ⟨a, b, _⟩ := hp.2 c h
      simp only [Bool.or_eq_true, decide_eq_true_eq, not_or, UInt8.lt_iff_toNat_lt, UInt8.le_iff_toNat_le, gt_iff_lt] at a b ⊢
      omega
    · subst h; decide
    · rw [(h4 c h).2.2]; decide
  unfold bech32Decode
  rw [if_neg (by omega), hany, if_neg (by decide), if_neg (by simp only [hlow, ne_eq, not_true, false_and, not_false_iff])]
  simp only [hlow]
  rw [Bech32m.lastSep_append p cs (fun c hc => (h4 c hc).2.1)]
  simp only
  rw [if_neg (by omega)]
  have ht : (p ++ [0x31] ++ cs).take p.length = p := by simp
  have hdr : (p ++ [0x31] ++ cs).drop (p.length + 1) = cs := by
    rw [List.drop_append_of_le_length (by simp)]; simp
  rw [ht, hdr, h3]
  simp only [hv, ne_eq, not_true, if_false]
  simp [hck]

open _root_.Verif.Spec.Bytom (bitsOf IsAddress)

theorem bits5 : ∀ n < 32, horner 2 0 ((bitsOf 5 n).map Bool.toNat) = n := by decide +kernel
theorem bits8 : ∀ n < 256, horner 2 0 ((bitsOf 8 n).map Bool.toNat) = n := by decide +kernel

theorem bitsOf_length (w n : Nat) : (bitsOf w n).length = w := by simp [bitsOf]

theorem horner_lin (b a : Nat) (l : List Nat) : horner b a l = a * b ^ l.length + horner b 0 l := by
  rw [horner_eq, horner_eq b l 0]; simp

theorem bits_horner (w : Nat) (hw : ∀ n < 2 ^ w, horner 2 0 ((bitsOf w n).map Bool.toNat) = n) : ∀ (l : List Nat) (a : Nat), (∀ v ∈ l, v < 2 ^ w) →
    horner 2 a ((l.flatMap (bitsOf w)).map Bool.toNat) = horner (2 ^ w) a l
  | [], a, _ => by simp [horner]
  | v :: l, a, h => by
    rw [List.flatMap_cons, List.map_append, horner_append, horner_lin 2 a, hw v (h v (by simp)), List.length_map, bitsOf_length,
      bits_horner w hw l _ (fun x hx => h x (by simp [hx]))]
    simp only [horner]
    rw [Nat.mul_comm a]

theorem bool_lt (l : List Bool) : ∀ d ∈ l.map Bool.toNat, d < 2 := by
  intro d hd
  obtain ⟨b, _, rfl⟩ := List.mem_map.mp hd
  cases b <;> decide

theorem horner_zeros (b a k : Nat) : horner b a (List.replicate k 0) = a * b ^ k := by
  rw [horner_lin, List.length_replicate]
  have : ∀ k, horner b 0 (List.replicate k 0) = 0 := by
    intro k
    induction k with
    | zero => rfl
    | succ k ih => simpa [List.replicate_succ, horner] using ih
  rw [this]; simp

/-- Bit strings and values say the same. -/
theorem bits_iff (p : Bytes) (syms : List Nat) (hs : ∀ s ∈ syms, s < 32) (hl : syms.length = (8 * p.length + 4) / 5) :
    syms.flatMap (bitsOf 5) = p.flatMap (fun b => bitsOf 8 b.toNat) ++ List.replicate (5 * syms.length - 8 * p.length) false ↔
      horner 32 0 syms = horner 256 0 (p.map UInt8.toNat) * 2 ^ (5 * syms.length - 8 * p.length) := by
  have e1 := bits_horner 5 (by simpa using bits5) syms 0 (by simpa using hs)
  have e2 := bits_horner 8 (by simpa using bits8) (p.map UInt8.toNat) 0 (by simpa using Bech32m.bytes_lt p)
  have e3 : (p.map UInt8.toNat).flatMap (bitsOf 8) = p.flatMap (fun b => bitsOf 8 b.toNat) := by
    rw [List.flatMap_map]
  rw [e3] at e2
  simp only [show (2 : Nat) ^ 5 = 32 from rfl, show (2 : Nat) ^ 8 = 256 from rfl] at e1 e2
  have e4 : horner 2 0 ((p.flatMap (fun b => bitsOf 8 b.toNat) ++ List.replicate (5 * syms.length - 8 * p.length) false).map Bool.toNat) =
      horner 256 0 (p.map UInt8.toNat) * 2 ^ (5 * syms.length - 8 * p.length) := by
    rw [List.map_append, horner_append, e2, List.map_replicate]
    exact horner_zeros _ _ _
  rw [← e1, ← e4]
  constructor
  · intro h; rw [h]
  · intro h
    have hlen : ∀ (w : Nat) (l : List Nat), (l.flatMap (bitsOf w)).length = w * l.length := by
      intro w l
      induction l with
      | nil => simp
      | cons v l ih => simp [bitsOf_length, ih]; ring
    have := Bech32m.horner_inj (b := 2) (by omega) _ _ (by
      rw [List.length_map, List.length_map, List.length_append, ← e3, hlen, hlen, List.length_map, List.length_replicate]
      omega) (bool_lt _) (bool_lt _) h
    exact List.map_injective_iff.mpr (by intro a b; cases a <;> cases b <;> simp) this

theorem hrpExpand_eq (p : Bytes) : Bech32m.hrpExpand p = Spec.Bch.hrpSymbols p := by
  rw [← Bch.expand_eq]; rfl

theorem polymod_iff (hrp : Bytes) (data : List Nat) (hd : ∀ v ∈ data, v < 32) : Bech32m.polymod (Bech32m.hrpExpand hrp ++ data) = 1 ↔
    Spec.Bch.remainder Spec.Bch.bech32Gen (1 :: (Spec.Bch.hrpSymbols hrp ++ data)) = [0, 0, 0, 0, 0, 1] := by
  rw [← (C64_bech32m_is_bip350 hrp data hd).1]
  unfold Bech32m.verifyChecksum
  simp only
  by_cases h : Bech32m.polymod (Bech32m.hrpExpand hrp ++ data) = 1
  · simp [h]
  · simp [h]

/-- An address is decoded to its program. -/
theorem decode_address (hrp p text : Bytes) (hh : Bech32m.IsHrp hrp) (hl : hrp.length ≤ 30) (hp : p.length = 20 ∨ p.length = 32)
    (h : IsAddress hrp p text) : decodeSegWitAddress text = .ok (0, p) ∧ text.take hrp.length = hrp ∧ hrp.length ≤ text.length := by
  obtain ⟨syms, check, h1, h2, h3, h4, h5, h6, rfl⟩ := h
  have hall : ∀ v ∈ 0 :: syms ++ check, v < 32 := by
    intro v hv
    simp only [List.cons_append, List.mem_cons, List.mem_append] at hv
    rcases hv with rfl | hv | hv
    · omega
    · exact h1 v hv
    · exact h2 v hv
  have hd := bech32Decode_of hrp hh (0 :: syms) check hall h3 (by simp only [List.length_cons]; omega) ((polymod_iff hrp _ hall).mpr h6)
  have h5' := (bits_iff p syms h1 h4).mp h5
  have hc := conv58 (p.map UInt8.toNat) syms (Bech32m.bytes_lt p) (by simpa using h4) h1 (by simpa using h5')
  refine ⟨?_, by simp, by simp only [List.length_append]; omega⟩
  have ht : hrp ++ asc "1" ++ (0 :: syms ++ check).map (fun s => (asc "qpzry9x8gf2tvdw0s3jn54khce6mua7l").getD s 0) =
      hrp ++ [0x31] ++ chars (0 :: syms ++ check) := rfl
  rw [ht]
  unfold decodeSegWitAddress
  rw [hd]
  simp only [Res.bind_ok]
  rw [if_neg (by omega), hc]
  simp only [Res.bind_ok, List.length_map]
  rw [if_neg (by omega), if_neg (by omega), List.map_map]
  congr 2
  conv_rhs => rw [← List.map_id p]
  apply List.map_congr_left
  intro b _
  simp

/-- The encoder writes the address of the program. -/
theorem encode_address (hrp p : Bytes) (hh : Bech32m.IsHrp hrp) (hl : hrp.length ≤ 30) (hp : p.length = 20 ∨ p.length = 32) :
    ∃ text, encodeSegWitAddress hrp 0 p = .ok text ∧ IsAddress hrp p text := by
  obtain ⟨c, c1, c2, c3, c4⟩ := conv85 (p.map UInt8.toNat) (Bech32m.bytes_lt p)
  simp only [List.length_map] at c2 c4
  have hd : ∀ v ∈ 0 :: c, v < 32 := by
    intro v hv
    rcases List.mem_cons.mp hv with rfl | hv
    · omega
    · exact c3 v hv
  have hx : ∀ v ∈ Bech32m.hrpExpand hrp ++ (0 :: c), v < 32 := by
    intro v hv
    rcases List.mem_append.mp hv with h | h
    · exact Bech32m.hrpExpand_lt hrp v h
    · exact hd v h
  have hlt : ∀ s ∈ bech32Checksum hrp (0 :: c), s < 32 := symbolsOf_lt _ _
  have hlen : (bech32Checksum hrp (0 :: c)).length = 6 := symbolsOf_length _ _
  have hall : ∀ v ∈ 0 :: c ++ bech32Checksum hrp (0 :: c), v < 32 := by
    intro v hv
    rcases List.mem_append.mp hv with h | h
    · exact hd v h
    · exact hlt v h
  have hrun : Bech32m.polymod (Bech32m.hrpExpand hrp ++ (0 :: c ++ bech32Checksum hrp (0 :: c))) = 1 := by
    have := run_checksum fit_bech32 _ hx 6 1 rfl (by decide)
    unfold bech32Checksum Bech32m.polymod
    rw [← List.append_assoc]
    exact this
  have ha : IsAddress hrp p (hrp ++ asc "1" ++ chars (0 :: c ++ bech32Checksum hrp (0 :: c))) :=
    ⟨c, bech32Checksum hrp (0 :: c), c3, hlt, hlen, c2, (bits_iff p c c3 c2).mpr c4, (polymod_iff hrp _ hall).mp hrun, rfl⟩
  refine ⟨_, ?_, ha⟩
  unfold encodeSegWitAddress bech32Encode
  rw [c1]
  simp only [Res.bind_ok]
  rw [(chars_ok _ hall).1]
  simp only [Res.bind_ok]
  have ht : hrp ++ asc "1" ++ chars (0 :: c ++ bech32Checksum hrp (0 :: c)) = hrp ++ 0x31 :: chars (0 :: c ++ bech32Checksum hrp (0 :: c)) := by
    have : asc "1" = [0x31] := by decide
    rw [this]; simp
  rw [ht] at ha
  rw [ht, (decode_address hrp p _ hh hl hp ha).1]
  simp

/-! ### What is accepted -/

theorem revAll_chars : ∀ (cs : Bytes) (vs : List Nat), Bech32m.revAll Bech32.stdAlphabet cs = some vs → cs = chars vs ∧ ∀ v ∈ vs, v < 32
  | [], vs, h => by
    simp only [Bech32m.revAll, Option.some.injEq] at h
    subst h
    exact ⟨rfl, by simp⟩
  | c :: cs, vs, h => by
    unfold Bech32m.revAll at h
    split at h
    · rename_i v ws h1 h2
      cases h
      split at h1
      · rename_i hm
        cases h1
        obtain ⟨e1, e2⟩ := revAll_chars cs ws h2
        have hc : ∀ c ∈ Bech32.stdAlphabet, Bech32.stdAlphabet.idxOf c < 32 ∧
            (asc "qpzry9x8gf2tvdw0s3jn54khce6mua7l").getD (Bech32.stdAlphabet.idxOf c) 0 = c := by decide +kernel
        obtain ⟨g1, g2⟩ := hc c hm
        refine ⟨?_, ?_⟩
        · show c :: cs = _ :: chars ws
          exact congrArg₂ List.cons g2.symm e1
        · intro v hv
          rcases List.mem_cons.mp hv with rfl | hv
          · exact g1
          · exact e2 v hv
      · cases h1
    · cases h

theorem bech32Decode_sound {text hrp : Bytes} {data : List Nat} (hl : text.map Bech32m.toLower = text) (h : bech32Decode text = .ok (hrp, data)) :
    ∃ check : List Nat, check.length = 6 ∧ (∀ v ∈ data ++ check, v < 32) ∧ text = hrp ++ [0x31] ++ chars (data ++ check) ∧
      Bech32m.polymod (Bech32m.hrpExpand hrp ++ (data ++ check)) = 1 := by
  unfold bech32Decode at h
  split_ifs at h with h1 h2 h3
  simp only [hl] at h
  split at h
  · cases h
  rename_i one hone
  split_ifs at h with h4
  split at h
  · cases h
  rename_i vs hvs
  split_ifs at h with h5
  simp only [Res.ok.injEq, Prod.mk.injEq] at h
  obtain ⟨rfl, rfl⟩ := h
  have hsp := Bech32m.lastSep_split hone
  obtain ⟨e1, e2⟩ := revAll_chars _ _ hvs
  have hlen : vs.length = text.length - (one + 1) := by
    have := congrArg List.length e1
    simpa [chars] using this.symm
  have hd : vs.take (vs.length - 6) ++ vs.drop (vs.length - 6) = vs := List.take_append_drop _ _
  refine ⟨vs.drop (vs.length - 6), by rw [List.length_drop]; omega, by rw [hd]; exact e2, ?_, ?_⟩
  · rw [hd, ← e1]
    simpa using hsp
  · rw [hd]; exact not_not.mp h5

theorem conv58_sound (c data : List Nat) (hc : ∀ v ∈ c, v < 32) (h : convertBits c 5 8 false = .ok data) :
    (∀ v ∈ data, v < 256) ∧ c.length = (8 * data.length + 4) / 5 ∧ horner 32 0 c = horner 256 0 data * 2 ^ (5 * c.length - 8 * data.length) := by
  obtain ⟨o, n, f, h0, h1, hn, h2, h3, h4⟩ := convLoop_spec 5 8 (by omega) (by omega) (by omega) c 0 0 (by omega) (by simp) (by simpa using hc)
  unfold convertBits at h
  rw [if_neg (by omega)] at h
  simp only [h0] at h
  rw [if_neg (by simp)] at h
  split_ifs at h with h5
  simp only [Res.ok.injEq] at h
  subst h
  have h4' : horner 32 0 c = horner 256 0 o * 2 ^ f + n := by simpa using h4
  have hn0 : n = 0 := by
    by_cases hf : f = 0
    · subst hf; simpa using hn
    · by_contra hne; exact h5 ⟨by omega, .inr hne⟩
  have hf4 : f ≤ 4 := by
    by_contra hne; exact h5 ⟨by omega, .inl (by omega)⟩
  refine ⟨by simpa using h3, by omega, ?_⟩
  rw [h4', hn0, show 5 * c.length - 8 * o.length = f by omega]
  rfl

/-- Lower-case texts that are decoded to version 0 are addresses. -/
theorem address_sound {text p : Bytes} (hl : text.map Bech32m.toLower = text) (h : decodeSegWitAddress text = .ok (0, p)) :
    ∃ hrp, IsAddress hrp p text ∧ (p.length = 20 ∨ p.length = 32) := by
  unfold decodeSegWitAddress at h
  obtain ⟨⟨hrp, data⟩, hd, h⟩ := Res.bind_eq_ok.mp h
  obtain ⟨check, k1, k2, k3, k4⟩ := bech32Decode_sound hl hd
  cases data with
  | nil => cases h
  | cons v syms =>
    simp only at h
    split_ifs at h with h1
    obtain ⟨r, hr, h⟩ := Res.bind_eq_ok.mp h
    split_ifs at h with h2 h3
    simp only [Res.ok.injEq, Prod.mk.injEq] at h
    obtain ⟨rfl, rfl⟩ := h
    have hs : ∀ s ∈ syms, s < 32 := fun s hs => k2 s (by simp [hs])
    obtain ⟨c1, c2, c3⟩ := conv58_sound syms r hs hr
    have hback : (r.map UInt8.ofNat).map UInt8.toNat = r := by
      rw [List.map_map]
      conv_rhs => rw [← List.map_id r]
      apply List.map_congr_left
      intro b hb
      exact UInt8.toNat_ofNat_of_lt' (c1 b hb)
    refine ⟨hrp, ⟨syms, check, hs, fun s hs => k2 s (by simp [hs]), k1, by simpa using c2, ?_, (polymod_iff hrp _ k2).mp k4, k3⟩, ?_⟩
    · rw [bits_iff _ syms hs (by simpa using c2), hback, List.length_map]
      exact c3
    · rw [List.length_map]; omega

theorem hrpOf_ok (test : Bool) : Bech32m.IsHrp (hrpOf test) ∧ (hrpOf test).length = 2 ∧ hrpOf test = Spec.Bytom.hrp test := by
  cases test <;> refine ⟨⟨by decide, by decide⟩, by decide, rfl⟩

end Verif.Bytom
