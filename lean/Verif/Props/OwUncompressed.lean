import Verif.Props.OwKeychain

/-! C128: uncompressed public keys of extended keys. -/

namespace Verif
open Verif.Spec Verif.OwKeychain

/-- C128 on the short-Weierstrass curves. For every private key (32 bytes, not zero modulo the order): the key, and its public counterpart,
give the uncompressed form of the point whose compressed form `GetPublicKeyBytes` returns. -/
theorem C128_weierstrass_partial (E : Ext) (k : ExtendedKey)
    (hc : k.curveType = E.ids.secp256k1 ∨ k.curveType = E.ids.secp256r1 ∨ k.curveType = E.ids.sm2)
    (law : WeierstrassLaw E k.curveType) (hp : k.isPrivate = true) (hlen : k.key.length = 32)
    (h0 : ¬ curveOrder E.ids k.curveType ∣ beNat k.key) :
    ∃ P : law.G, P ≠ (letI := law.group; 0) ∧ publicKeyBytes E k = law.comp P ∧ publicKeyBytes E (getPublicKey E k) = law.comp P ∧
      uncompressedPublicKeyBytes E k = .ok (law.full P) ∧ uncompressedPublicKeyBytes E (getPublicKey E k) = .ok (law.full P) := by
  let _ := law.group
  have hP : beNat k.key • law.g ≠ 0 := by
    intro h
    exact h0 (law.order ▸ addOrderOf_dvd_of_nsmul_eq_zero h)
  have ht : typeChoose E.ids k.curveType = k.curveType := by
    have hd := E.ids.distinct
    simp only [List.nodup_cons, List.mem_cons, List.not_mem_nil, or_false, not_or] at hd
    unfold typeChoose
    rw [if_neg]
    simp only [Bool.or_eq_true, beq_iff_eq, not_or]
    rcases hc with h | h | h <;> rw [h] <;> constructor <;> intro h' <;> simp_all
  refine ⟨beNat k.key • law.g, hP, ?_, ?_, ?_, ?_⟩
  · simp only [publicKeyBytes, hp, if_true, ht, law.mulBaseG _ hlen hP]
  · simp [publicKeyBytes, getPublicKey, hp, ht, law.mulBaseG _ hlen hP]
  · simp only [uncompressedPublicKeyBytes, hp, if_true, law.mulBaseG _ hlen hP, law.decompress _ hP]
  · simp [uncompressedPublicKeyBytes, getPublicKey, hp, ht, law.mulBaseG _ hlen hP, law.decompress _ hP]

example : (let k : ExtendedKey := parentEx; ∃ b, uncompressedPublicKeyBytes (toyExt (List.replicate 64 1) rfl) k = .ok b ∧ b.length = 64) ∧
    ¬ curveOrder toyIds parentEx.curveType ∣ beNat parentEx.key ∧ parentEx.key.length = 32 :=
  ⟨⟨_, rfl, by decide +kernel⟩, by decide +kernel, by decide +kernel⟩

/-- C128 on every curve but X25519 and Curve25519: a private key and its public counterpart always give the same answer. -/
theorem C128_pair_partial (E : Ext) (k : ExtendedKey) (h1 : k.curveType ≠ E.ids.x25519) (h2 : k.curveType ≠ E.ids.curve25519Sha256) :
    uncompressedPublicKeyBytes E (getPublicKey E k) = uncompressedPublicKeyBytes E k := by
  have ht : typeChoose E.ids k.curveType = k.curveType := by
    unfold typeChoose
    rw [if_neg (by simp [h1, h2])]
  unfold getPublicKey uncompressedPublicKeyBytes
  cases hp : k.isPrivate
  · simp [hp]
  · simp [ht]

/-- The part of C128 that fails (a): on X25519 and Curve25519 `GetPublicKeyBytes` and `GetPublicKey` return the ed25519 point, while the
uncompressed key is made from the point the other curve has. Where the two points differ and decompression is injective, the private key
and its public counterpart never give the same bytes. -/
theorem C128_montgomery_violated (E : Ext) (k : ExtendedKey) (hp : k.isPrivate = true)
    (hc : k.curveType = E.ids.x25519 ∨ k.curveType = E.ids.curve25519Sha256)
    (hne : E.mulBaseG k.curveType k.key ≠ E.mulBaseG E.ids.ed25519 k.key)
    (hinj : ∀ p q, (E.decompress k.curveType p).drop 1 = (E.decompress k.curveType q).drop 1 → p = q) :
    publicKeyBytes E (getPublicKey E k) = publicKeyBytes E k ∧
    ¬ ∃ u, uncompressedPublicKeyBytes E k = .ok u ∧ uncompressedPublicKeyBytes E (getPublicKey E k) = .ok u := by
  have ht : typeChoose E.ids k.curveType = E.ids.ed25519 := by
    unfold typeChoose
    rw [if_pos (by rcases hc with h | h <;> simp [h])]
  refine ⟨by simp [publicKeyBytes, getPublicKey, hp], ?_⟩
  rintro ⟨u, h1, h2⟩
  simp only [uncompressedPublicKeyBytes, hp, if_true] at h1
  simp only [uncompressedPublicKeyBytes, getPublicKey, hp, Bool.not_true, Bool.false_eq_true, if_false, ht] at h2
  apply hne
  apply hinj
  revert h1 h2
  cases E.decompress k.curveType (E.mulBaseG k.curveType k.key) <;>
    cases E.decompress k.curveType (E.mulBaseG E.ids.ed25519 k.key) <;> simp
  rintro rfl rfl
  rfl

/-- An instance whose X25519 and ed25519 points differ. -/
def OwKeychain.splitExt : Ext := { toyExt (List.replicate 64 1) rfl with
  mulBaseG := fun c s => if c = toyIds.ed25519 then 1 :: s else s
  decompress := fun _ p => 4 :: p }

example : let E := splitExt; let k : ExtendedKey := { parentEx with curveType := toyIds.x25519 }
    E.mulBaseG k.curveType k.key ≠ E.mulBaseG E.ids.ed25519 k.key ∧
    ∀ p q, (E.decompress k.curveType p).drop 1 = (E.decompress k.curveType q).drop 1 → p = q :=
  ⟨by decide +kernel, by intro p q h; exact h⟩

/-- The part of C128 that fails (b): the call panics exactly if the external function does not decompress the key's point (in particular for
a public key read from a text whose bytes are not a point). -/
theorem C128_no_point_violated (E : Ext) (k : ExtendedKey) (hp : k.isPrivate = false) :
    (uncompressedPublicKeyBytes E k = .panic ↔ E.decompress k.curveType (publicKeyBytes E k) = []) ∧
    (∀ u, uncompressedPublicKeyBytes E k = .ok u ↔ ∃ t, E.decompress k.curveType (publicKeyBytes E k) = t :: u) := by
  unfold uncompressedPublicKeyBytes publicKeyBytes
  simp only [hp, Bool.false_eq_true, if_false]
  cases E.decompress k.curveType k.key <;> simp

example : let E : Ext := { toyExt (List.replicate 64 1) rfl with decompress := fun _ p => if p.head? = some 2 then 4 :: p else [] }
    let k : ExtendedKey := { parentEx with key := 5 :: List.replicate 32 7, isPrivate := false }
    WellFormedKey toyIds k ∧ uncompressedPublicKeyBytes E k = .panic :=
  ⟨⟨rfl, rfl, by decide +kernel⟩, by decide +kernel⟩

end Verif
