import Verif.Props.OwKeychain
import Verif.Spec.Bip32

/-! Property C65: child key derivation is BIP 32. -/

namespace Verif
open Verif.Spec Verif.OwKeychain

namespace Bip32
open Verif.Spec.Bip32

theorem parse256_eq (b : Bytes) : parse256 b = beNat b := by
  have h : ∀ (b : Bytes) (n : Nat), b.foldl (fun n x => n * 256 + x.toNat) n = n * 256 ^ b.length + beNat b := by
    intro b
    induction b with
    | nil => intro n; simp [beNat]
    | cons x xs ih =>
      intro n
      rw [List.foldl_cons, ih, show x :: xs = [x] ++ xs from rfl, beNat_append, List.length_append, List.length_singleton]
      have : beNat [x] = x.toNat := by simp [beNat, leNat]
      rw [this, pow_add]
      ring
  have := h b 0
  simpa [parse256] using this

theorem ser32_eq (i : UInt32) : beBytes 4 i.toNat = ser32 i := by
  have h : ∀ n : Nat, beBytes 4 n = [UInt8.ofNat (n / 2 ^ 24), UInt8.ofNat (n / 2 ^ 16), UInt8.ofNat (n / 2 ^ 8), UInt8.ofNat n] := by
    intro n
    simp [beBytes, leBytes, Nat.div_div_eq_div_mul]
  exact h _

/-- The orders in the standards' decimal form are those the code uses. -/
theorem orders (ids : CurveIds) : curveOrder ids ids.secp256k1 = orderSecp256k1 ∧ curveOrder ids ids.secp256r1 = orderP256 ∧
    curveOrder ids ids.sm2 = orderSm2 ∧ curveOrder ids ids.ed25519 = orderEd25519 := by
  have hd := ids.distinct
  simp only [List.nodup_cons, List.mem_cons, List.not_mem_nil, or_false, not_or] at hd
  obtain ⟨h1, h2, h3, h4, h5, h6, h7, h8, h9, h10⟩ := hd
  refine ⟨?_, ?_, ?_, ?_⟩
  · unfold curveOrder; rw [if_pos rfl]; rfl
  · unfold curveOrder; rw [if_neg (Ne.symm h1.1), if_pos rfl]; rfl
  · unfold curveOrder; rw [if_neg (Ne.symm h1.2.1), if_neg (Ne.symm h2.1), if_pos rfl]; rfl
  · unfold curveOrder
    rw [if_neg (Ne.symm h1.2.2.2.1), if_neg (Ne.symm h2.2.2.1), if_neg (Ne.symm h3.2.1), if_pos (Or.inl rfl)]; rfl

/-- A curve of the BIP 32 kind with the order of its standard. -/
def Standard (ids : CurveIds) (c : UInt32) (n : Nat) : Prop :=
  (c = ids.secp256k1 ∧ n = orderSecp256k1) ∨ (c = ids.secp256r1 ∧ n = orderP256) ∨ (c = ids.sm2 ∧ n = orderSm2)

theorem standard_facts {ids : CurveIds} {c : UInt32} {n : Nat} (h : Standard ids c n) :
    curveOrder ids c = n ∧ edLike ids c = false ∧ isBls ids c = false ∧ (c == ids.pasta) = false ∧ typeChoose ids c = c := by
  have hd := ids.distinct
  simp only [List.nodup_cons, List.mem_cons, List.not_mem_nil, or_false, not_or] at hd
  obtain ⟨h1, h2, h3, _⟩ := hd
  obtain ⟨o1, o2, o3, _⟩ := orders ids
  rcases h with ⟨rfl, rfl⟩ | ⟨rfl, rfl⟩ | ⟨rfl, rfl⟩
  · refine ⟨o1, ?_, ?_, ?_, ?_⟩ <;> simp [edLike, isBls, typeChoose, h1]
  · refine ⟨o2, ?_, ?_, ?_, ?_⟩ <;> simp [edLike, isBls, typeChoose, h2]
  · refine ⟨o3, ?_, ?_, ?_, ?_⟩ <;> simp [edLike, isBls, typeChoose, h3]

theorem getI_eq (E : Ext) {c : UInt32} (hb : isBls E.ids c = false) (hp : (c == E.ids.pasta) = false) (d cc : Bytes) (i : UInt32) :
    getI E d cc i c = E.hmac512 cc ((if d.length = 32 then 0x00 :: d else d) ++ ser32 i) := by
  unfold getI
  simp only [hb, hp, ser32_eq, Bool.false_eq_true, if_false]
  split <;> simp

end Bip32

open Verif.Bip32 Verif.Spec.Bip32

/-- C65, private derivation (secp256k1, P-256, SM2), both directions, for every 32-byte parent key, chain code and index. Missing from
the full statement: the code also refuses the child when I_L is zero (BIP 32 does not), and the child key is handed out as a byte string
that can be shorter than 32 bytes (C18); the value is right. -/
theorem C65_ckd_priv_partial (E : Ext) (k : ExtendedKey) (i : UInt32) (n : Nat) (hc : Standard E.ids k.curveType n)
    (hk : k.isPrivate = true) (hl : k.key.length = 32) (hpub : (E.mulBaseG k.curveType k.key).length = 33) (hd : k.depth ≠ 255) :
    (∀ child, genPrivateChild E k i = .ok child →
      ckdPriv n E.hmac512 (E.mulBaseG k.curveType k.key) k.key k.chainCode i = some (parse256 child.key, child.chainCode)) ∧
    (∀ v cc, ckdPriv n E.hmac512 (E.mulBaseG k.curveType k.key) k.key k.chainCode i = some (v, cc) →
      parse256 ((E.hmac512 k.chainCode ((if i.toNat ≥ 2 ^ 31 then 0x00 :: k.key else E.mulBaseG k.curveType k.key) ++ ser32 i)).take 32) ≠ 0 →
      ∃ child, genPrivateChild E k i = .ok child ∧ parse256 child.key = v ∧ child.chainCode = cc) := by
  obtain ⟨h1, h2, h3, h4, h5⟩ := standard_facts hc
  have hI : (if i ≥ 0x80000000 then getI E k.key k.chainCode i k.curveType
      else getI E (E.mulBaseG k.curveType k.key) k.chainCode i k.curveType) =
      E.hmac512 k.chainCode ((if i.toNat ≥ 2 ^ 31 then 0x00 :: k.key else E.mulBaseG k.curveType k.key) ++ ser32 i) := by
    have : i ≥ 0x80000000 ↔ i.toNat ≥ 2 ^ 31 := by rw [ge_iff_le, UInt32.le_iff_toNat_le]; rfl
    by_cases hi : i ≥ 0x80000000
    · rw [if_pos hi, if_pos (this.mp hi), getI_eq E h3 h4, if_pos hl]
    · rw [if_neg hi, if_neg (fun h => hi (this.mpr h)), getI_eq E h3 h4, if_neg (by omega)]
  unfold genPrivateChild ckdPriv
  simp only [h5, hk, hI, hd, if_false, Bool.not_true, Bool.false_eq_true, priChild, h2, h1, parse256_eq]
  generalize E.hmac512 k.chainCode _ = I
  constructor
  · intro child h
    by_cases a1 : beNat (I.take 32) ≥ n ∨ beNat (I.take 32) = 0
    · simp [a1] at h
    · simp only [a1, if_false] at h
      by_cases a2 : (beNat (I.take 32) + beNat k.key) % n = 0
      · simp [a2] at h
      · simp only [a2, if_false] at h
        cases h
        rw [not_or] at a1
        simp [a1.1, a2, beNat_padLoop, beNat_bigBytes]
  · intro v cc h h0
    by_cases a1 : beNat (I.take 32) ≥ n
    · simp [a1] at h
    · by_cases a2 : (beNat (I.take 32) + beNat k.key) % n = 0
      · simp [a2] at h
      · simp only [a1, a2, or_self, if_false, Option.some.injEq, Prod.mk.injEq] at h
        obtain ⟨e1, e2⟩ := h
        simp only [a1, h0, or_self, if_false, a2]
        refine ⟨_, rfl, ?_, e2⟩
        rw [beNat_padLoop, beNat_bigBytes]
        exact e1

/-- C65 fails when I_L is zero: BIP 32 has a child, whose key is the parent's, and the code reports an error. -/
theorem C65_zero_violated (E : Ext) (k : ExtendedKey) (i : UInt32) (n : Nat) (hc : Standard E.ids k.curveType n)
    (hk : k.isPrivate = true) (hl : k.key.length = 32) (hpub : (E.mulBaseG k.curveType k.key).length = 33) (hd : k.depth ≠ 255)
    (h0 : parse256 ((E.hmac512 k.chainCode ((if i.toNat ≥ 2 ^ 31 then 0x00 :: k.key else E.mulBaseG k.curveType k.key) ++ ser32 i)).take 32) = 0)
    (hkey : parse256 k.key % n ≠ 0) :
    (∃ cc, ckdPriv n E.hmac512 (E.mulBaseG k.curveType k.key) k.key k.chainCode i = some (parse256 k.key % n, cc)) ∧
      genPrivateChild E k i = .err := by
  obtain ⟨h1, h2, h3, h4, h5⟩ := standard_facts hc
  have hI : (if i ≥ 0x80000000 then getI E k.key k.chainCode i k.curveType
      else getI E (E.mulBaseG k.curveType k.key) k.chainCode i k.curveType) =
      E.hmac512 k.chainCode ((if i.toNat ≥ 2 ^ 31 then 0x00 :: k.key else E.mulBaseG k.curveType k.key) ++ ser32 i) := by
    have : i ≥ 0x80000000 ↔ i.toNat ≥ 2 ^ 31 := by rw [ge_iff_le, UInt32.le_iff_toNat_le]; rfl
    by_cases hi : i ≥ 0x80000000
    · rw [if_pos hi, if_pos (this.mp hi), getI_eq E h3 h4, if_pos hl]
    · rw [if_neg hi, if_neg (fun h => hi (this.mpr h)), getI_eq E h3 h4, if_neg (by omega)]
  have hn : ¬ n ≤ 0 := by
    rcases hc with ⟨_, rfl⟩ | ⟨_, rfl⟩ | ⟨_, rfl⟩ <;> decide +kernel
  unfold genPrivateChild ckdPriv
  simp only [h5, hk, hI, hd, if_false, Bool.not_true, Bool.false_eq_true, priChild, h2, h1]
  generalize E.hmac512 k.chainCode _ = I at *
  constructor
  · refine ⟨I.drop 32, ?_⟩
    rw [h0, Nat.zero_add]
    simp [hkey, hn]
  · rw [parse256_eq] at h0
    rw [if_pos (Or.inr h0)]

/-- C65, public derivation (CKDpub) from a 33-byte public key: the point is parent + point(I_L) as computed by the curve library, the
chain code I_R, with I = HMAC-SHA512(chain code, key || ser32(i)). -/
theorem C65_ckd_pub (E : Ext) (k : ExtendedKey) (i : UInt32) (n : Nat) (hc : Standard E.ids k.curveType n)
    (hk : k.isPrivate = false) (hl : k.key.length = 33) (child : ExtendedKey) (h : genPublicChild E k i = .ok child) :
    let I := E.hmac512 k.chainCode (k.key ++ ser32 i)
    i.toNat < 2 ^ 31 ∧ parse256 (I.take 32) < n ∧ child.chainCode = I.drop 32 ∧
      ∃ p, E.mulBaseGAdd k.curveType (E.decompress k.curveType k.key).tail (I.take 32) = (p, false) ∧
        child.key = E.compress k.curveType p := by
  obtain ⟨h1, h2, h3, h4, h5⟩ := standard_facts hc
  unfold genPublicChild at h
  have hI := getI_eq E h3 h4 k.key k.chainCode i
  rw [if_neg (by omega)] at hI
  simp only [h5, hk, Bool.not_false, if_true, hI] at h
  by_cases hi : i ≥ 0x80000000
  · simp [hi] at h
  rw [if_neg hi] at h
  obtain ⟨ck, hck, h⟩ := Res.bind_eq_ok.mp h
  cases h
  have hlen := E.hmac512_size k.chainCode (k.key ++ ser32 i)
  have hi' : i.toNat < 2 ^ 31 := by
    have : i ≥ 0x80000000 ↔ i.toNat ≥ 2 ^ 31 := by rw [ge_iff_le, UInt32.le_iff_toNat_le]; rfl
    rw [this] at hi; omega
  refine ⟨hi', ?_⟩
  unfold pubChild at hck
  simp only [h5, h2, h1, h3, Bool.false_eq_true, if_false] at hck
  by_cases a1 : beNat ((E.hmac512 k.chainCode (k.key ++ ser32 i)).take 32) ≥ n ∨ beNat ((E.hmac512 k.chainCode (k.key ++ ser32 i)).take 32) = 0
  · rw [if_pos a1] at hck; cases hck
  rw [if_neg a1] at hck
  rw [not_or] at a1
  refine ⟨by rw [parse256_eq]; omega, by simp only [hlen], ?_⟩
  obtain ⟨tl, htl, hck⟩ := Res.bind_eq_ok.mp hck
  have : tl = (E.decompress k.curveType k.key).tail := by
    unfold slice at htl
    split at htl
    · cases htl
      cases E.decompress k.curveType k.key <;> simp
    · cases htl
  subst this
  have hck' : (if (E.mulBaseGAdd k.curveType (E.decompress k.curveType k.key).tail
      ((E.hmac512 k.chainCode (k.key ++ ser32 i)).take 32)).2 = true then Res.err
      else Res.ok (E.compress k.curveType (E.mulBaseGAdd k.curveType (E.decompress k.curveType k.key).tail
      ((E.hmac512 k.chainCode (k.key ++ ser32 i)).take 32)).1)) = Res.ok ck := hck
  refine ⟨(E.mulBaseGAdd k.curveType (E.decompress k.curveType k.key).tail
      ((E.hmac512 k.chainCode (k.key ++ ser32 i)).take 32)).1, ?_, ?_⟩
  · split at hck'
    · cases hck'
    · rename_i hf
      exact Prod.ext rfl (by simpa using hf)
  · split at hck'
    · cases hck'
    · cases hck'; rfl

/-- C65 for ed25519 (and the two other names of the curve): the child scalar is the parent scalar plus eight times the first 28 bytes
of I, all little endian, and it is refused exactly when it is a multiple of the group order of RFC 8032. -/
theorem C65_ed25519_partial (E : Ext) (k : ExtendedKey) (i : UInt32)
    (hc : k.curveType = E.ids.ed25519 ∨ k.curveType = E.ids.x25519 ∨ k.curveType = E.ids.curve25519Sha256)
    (hk : k.isPrivate = true) (hl : k.key.length = 32) (hpub : (E.mulBaseG E.ids.ed25519 k.key).length = 32) (hd : k.depth ≠ 255) :
    let I := E.hmac512 k.chainCode ((0x00 :: if i.toNat ≥ 2 ^ 31 then k.key else E.mulBaseG E.ids.ed25519 k.key) ++ ser32 i)
    let sum := parse256 k.key.reverse + 8 * parse256 (I.take 28).reverse
    if sum % orderEd25519 = 0 then genPrivateChild E k i = .err
    else ∃ child, genPrivateChild E k i = .ok child ∧ parse256 child.key.reverse = sum ∧ child.chainCode = I.drop 32 := by
  have hed : edLike E.ids k.curveType = true := by simpa [edLike, or_assoc] using hc
  have ht := typeChoose_ed _ _ hed
  have hle : ∀ b : Bytes, parse256 b.reverse = leNat b := by
    intro b; rw [parse256_eq]; simp [beNat]
  have hb : isBls E.ids E.ids.ed25519 = false := by
    by_contra hh
    have := bls_not_ed E.ids _ (by simpa using hh)
    rw [edLike_ed] at this; cases this
  have hpas : (E.ids.ed25519 == E.ids.pasta) = false := by
    have hd := E.ids.distinct
    simp only [List.nodup_cons, List.mem_cons, List.not_mem_nil, or_false, not_or] at hd
    simp [hd]
  intro I sum
  have hI : (if i ≥ 0x80000000 then getI E k.key k.chainCode i E.ids.ed25519
      else getI E (E.mulBaseG E.ids.ed25519 k.key) k.chainCode i E.ids.ed25519) = I := by
    have : i ≥ 0x80000000 ↔ i.toNat ≥ 2 ^ 31 := by rw [ge_iff_le, UInt32.le_iff_toNat_le]; rfl
    by_cases hi : i ≥ 0x80000000
    · simp only [I]
      rw [if_pos hi, if_pos (this.mp hi), getI_eq E hb hpas, if_pos hl]
    · simp only [I]
      rw [if_neg hi, if_neg (fun h => hi (this.mpr h)), getI_eq E hb hpas, if_pos hpub]
  have hsum : leNat ((I.take 32).take 28) * 8 + leNat k.key = sum := by
    simp only [sum, hle, List.take_take]
    rw [show min 28 32 = 28 from rfl]; omega
  have htt : typeChoose E.ids E.ids.ed25519 = E.ids.ed25519 := typeChoose_ed _ _ (edLike_ed _)
  unfold genPrivateChild
  simp only [ht, hk, hd, if_false, Bool.not_true, Bool.false_eq_true, hI, priChild, htt, edLike_ed, if_true, hsum, (orders E.ids).2.2.2]
  by_cases a : sum % orderEd25519 = 0
  · rw [if_pos a, if_pos a]
  · rw [if_neg a, if_neg a]
    refine ⟨_, rfl, ?_, rfl⟩
    rw [List.reverse_reverse, parse256_eq, beNat_padLoop, beNat_bigBytes]

/-- Non-vacuity: a toy instance with parents on secp256k1 (private and public) and ed25519 that have children. -/
def Bip32.demo (c : UInt32) (p : Bool) (key : Bytes) : ExtendedKey where
  depth := 1
  parentFP := [1, 2, 3, 4]
  serializes := 7
  chainCode := List.replicate 32 9
  key := key
  isPrivate := p
  curveType := c

def Bip32.demoExt : Ext := toyExt (beBytes 32 (2 ^ 239) ++ List.replicate 32 1) rfl

example : Standard demoExt.ids toyIds.secp256k1 orderSecp256k1 ∧ (beBytes 32 5).length = 32 ∧
    (demoExt.mulBaseG toyIds.secp256k1 (beBytes 32 5)).length = 33 ∧
    (genPrivateChild demoExt (demo toyIds.secp256k1 true (beBytes 32 5)) 3).isOk = true ∧
    (genPublicChild demoExt (demo toyIds.secp256k1 false (2 :: beBytes 32 5)) 3).isOk = true ∧
    (demoExt.mulBaseG toyIds.ed25519 (beBytes 32 5)).length = 32 ∧
    (genPrivateChild demoExt (demo toyIds.ed25519 true (beBytes 32 5)) 0x80000003).isOk = true := by
  refine ⟨Or.inl ⟨rfl, rfl⟩, rfl, by decide +kernel, by decide +kernel, by decide +kernel, by decide +kernel, by decide +kernel⟩

/-- Non-vacuity of `C65_zero_violated`. -/
def Bip32.zeroExt : Ext := toyExt (List.replicate 64 0) rfl

example : let k := demo toyIds.secp256k1 true (beBytes 32 5)
    Standard zeroExt.ids k.curveType orderSecp256k1 ∧ k.isPrivate = true ∧ k.key.length = 32 ∧ (zeroExt.mulBaseG k.curveType k.key).length = 33 ∧
      k.depth ≠ 255 ∧ parse256 ((zeroExt.hmac512 k.chainCode (k.key ++ ser32 3)).take 32) = 0 ∧ parse256 k.key % orderSecp256k1 ≠ 0 := by
  refine ⟨Or.inl ⟨rfl, rfl⟩, rfl, rfl, by decide +kernel, by decide, by decide +kernel, by decide +kernel⟩

end Verif
