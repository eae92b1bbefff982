import Verif.Props.Address
import Verif.Spec.Eip55

/-! C138: which texts `AddressDecode` accepts under the Ethereum and ICX profiles; the capitalisation of EIP-55 is neither written nor checked. -/

namespace Verif
open Verif.Addr Verif.Spec.Eip55

namespace Eip

theorem value_iff (c v : UInt8) : Hex.value c = some v ↔ Spells c v.toNat := by
  have h1 : ∀ c : UInt8, ∀ v ∈ Hex.value c, Spells c v.toNat := by
    apply Hex.u8_forall; decide +kernel
  have h2 : ∀ n : Fin 16, ∀ c : Fin 256, Spells (UInt8.ofNat c.val) n.val → Hex.value (UInt8.ofNat c.val) = some (UInt8.ofNat n.val) := by
    decide +kernel
  constructor
  · intro h; exact h1 c v h
  · intro h
    have hv : v.toNat < 16 := by unfold Spells at h; omega
    have hc := c.toNat_lt
    have := h2 ⟨v.toNat, hv⟩ ⟨c.toNat, hc⟩ (by simpa using h)
    simpa using this

theorem nibble_shift (b : UInt8) (bs : Bytes) (i : Nat) : nibble (b :: bs) (i + 2) = nibble bs i := by
  unfold nibble
  have h1 : (i + 2) % 2 = i % 2 := by omega
  have h2 : (i + 2) / 2 = i / 2 + 1 := by omega
  rw [h1, h2, List.getD_cons_succ]

theorem nib (x y b : UInt8) (hx : x.toNat < 16) (hy : y.toNat < 16) : x * 16 + y = b ↔ x.toNat = b.toNat / 16 ∧ y.toNat = b.toNat % 16 := by
  have hb := b.toNat_lt
  rw [← UInt8.toNat_inj, UInt8.toNat_add, UInt8.toNat_mul]
  have : (16 : UInt8).toNat = 16 := rfl
  rw [this]
  omega

theorem decode_iff : ∀ d b : Bytes, Hex.decode d = .ok b ↔ HexText d b
  | [], b => by
    simp only [Hex.decode, Res.ok.injEq, HexText, List.length_nil, List.getElem?_nil, reduceCtorEq, IsEmpty.forall_iff, implies_true, and_true]
    constructor
    · rintro rfl; rfl
    · intro h; exact (List.length_eq_zero_iff.mp (by omega)).symm
  | [x], b => by
    simp only [Hex.decode, reduceCtorEq, HexText, List.length_singleton, false_iff, not_and]
    intro h; omega
  | x :: y :: d, [] => by
    simp only [HexText, List.length_cons, List.length_nil]
    refine iff_of_false ?_ (by omega)
    unfold Hex.decode
    split
    · split <;> simp
    · simp
  | x :: y :: d, b :: bs => by
    have ih := decode_iff d bs
    have h0 : nibble (b :: bs) 0 = b.toNat / 16 := rfl
    have h1 : nibble (b :: bs) 1 = b.toNat % 16 := rfl
    constructor
    · intro h
      unfold Hex.decode at h
      split at h
      · rename_i u v hu hv
        split at h <;> try cases h
        rename_i r hr
        obtain ⟨e1, e2⟩ := ih.mp hr
        have lu : u.toNat < 16 := by have := (value_iff _ _).mp hu; unfold Spells at this; omega
        have lv : v.toNat < 16 := by have := (value_iff _ _).mp hv; unfold Spells at this; omega
        obtain ⟨g1, g2⟩ := (nib u v _ lu lv).mp rfl
        refine ⟨by simp only [List.length_cons]; omega, ?_⟩
        intro i c hc
        match i, hc with
        | 0, hc =>
          simp only [List.getElem?_cons_zero, Option.some.injEq] at hc
          rw [h0, ← g1, ← hc]; exact (value_iff _ _).mp hu
        | 1, hc =>
          simp only [List.getElem?_cons_succ, List.getElem?_cons_zero, Option.some.injEq] at hc
          rw [h1, ← g2, ← hc]; exact (value_iff _ _).mp hv
        | i + 2, hc =>
          rw [nibble_shift]
          exact e2 i c (by simpa using hc)
      · cases h
    · rintro ⟨e1, e2⟩
      simp only [List.length_cons] at e1
      have hr := ih.mpr ⟨by omega, fun i c hc => by
        have := e2 (i + 2) c (by simpa using hc)
        rwa [nibble_shift] at this⟩
      have k0 := e2 0 x rfl
      have k1 := e2 1 y rfl
      rw [h0] at k0
      rw [h1] at k1
      have hb := b.toNat_lt
      have t0 : (UInt8.ofNat (b.toNat / 16)).toNat = b.toNat / 16 := by
        rw [UInt8.toNat_ofNat']; omega
      have t1 : (UInt8.ofNat (b.toNat % 16)).toNat = b.toNat % 16 := by
        rw [UInt8.toNat_ofNat']; omega
      have v0 := (value_iff x (UInt8.ofNat (b.toNat / 16))).mpr (by rw [t0]; exact k0)
      have v1 := (value_iff y (UInt8.ofNat (b.toNat % 16))).mpr (by rw [t1]; exact k1)
      unfold Hex.decode
      simp only [v0, v1, hr, Res.ok.injEq, List.cons.injEq, and_true]
      exact (nib _ _ _ (by omega) (by omega)).mpr ⟨t0, t1⟩

theorem no_x {d p : Bytes} (h : HexText (asc "0x" ++ d) p) : False := by
  have := h.2 1 0x78 rfl
  revert this
  unfold Spells
  have : (0x78 : UInt8).toNat = 120 := rfl
  omega

theorem eip_unfold (H : Hashes) (a : AddressType) (hE : a.encodeType = asc "eip55") (t : Bytes) :
    addressDecode H t a = (do
      let ret ← eip55Decode t
      if ret.length ≠ 20 then .err else .ok ret) := by
  unfold addressDecode; rw [hE]; rfl

end Eip

open Eip

/-- C138: under an Ethereum profile `AddressDecode` returns `p` for exactly the hexadecimal texts of the twenty bytes `p`, with or without "0x" in front, in any
mixture of small and capital letters. -/
theorem C138_accepted (H : Hashes) (a : AddressType) (hE : a.encodeType = asc "eip55") (t p : Bytes) :
    addressDecode H t a = .ok p ↔ p.length = 20 ∧ ∃ d, (t = d ∨ t = asc "0x" ++ d) ∧ HexText d p := by
  rw [eip_unfold H a hE, eip55Decode]
  constructor
  · intro h
    rw [Res.bind_eq_ok] at h
    obtain ⟨ret, h1, h2⟩ := h
    split_ifs at h2 with hl
    cases h2
    rw [Res.bind_eq_ok] at h1
    obtain ⟨two, h3, h4⟩ := h1
    refine ⟨by omega, ?_⟩
    split_ifs at h4 with h0
    · refine ⟨t.drop 2, Or.inr ?_, (decode_iff _ _).mp h4⟩
      unfold slice at h3
      split_ifs at h3
      cases h3
      rw [← h0]; simp
    · exact ⟨t, Or.inl rfl, (decode_iff _ _).mp h4⟩
  · rintro ⟨hp, d, ht, hd⟩
    have hdl := hd.1
    rcases ht with rfl | rfl
    · rw [slice_ok (by omega) (by omega)]
      simp only [Res.bind_ok]
      rw [if_neg, (decode_iff _ _).mpr hd]
      · simp [hp]
      · intro h0
        have : t = asc "0x" ++ t.drop 2 := by rw [← h0]; simp
        rw [this] at hd
        exact no_x hd
    · rw [slice_ok (by omega) (by simp [asc])]
      simp only [Res.bind_ok]
      have h1 : ((asc "0x" ++ d).take 2).drop 0 = asc "0x" := rfl
      have h2 : (asc "0x" ++ d).drop 2 = d := rfl
      rw [h1, if_pos rfl, h2, (decode_iff _ _).mpr hd]
      simp [hp]

/-- C138: under the ICX profile `AddressDecode` returns `p` for exactly "hx" and a hexadecimal text of the twenty bytes `p`. -/
theorem C138_icx (H : Hashes) (t p : Bytes) :
    addressDecode H t ICX_walletAddress = .ok p ↔ p.length = 20 ∧ ∃ d, t = asc "hx" ++ d ∧ HexText d p := by
  have hdec : addressDecode H t ICX_walletAddress = icxDecode t := rfl
  rw [hdec]
  have hx : ∀ d, asc "hx" ++ d = 0x68 :: 0x78 :: d := fun _ => rfl
  simp only [hx]
  constructor
  · intro h
    match t, h with
    | [], h => simp [icxDecode, index] at h
    | [x], h =>
      simp only [icxDecode, index, List.getElem?_cons_zero, Res.bind_ok] at h
      split_ifs at h <;> simp at h
    | x :: y :: d, h =>
      simp only [icxDecode, index, List.getElem?_cons_zero, List.getElem?_cons_succ, Res.bind_ok] at h
      split_ifs at h with h1 h2 h3
      simp only [not_not] at h1 h2 h3
      subst h1 h2
      have h4 := (decode_iff d p).mp h
      have h5 := h4.1
      refine ⟨?_, d, rfl, h4⟩
      simp only [List.length_cons] at h3
      omega
  · rintro ⟨hp, d, rfl, hd⟩
    have hdl := hd.1
    simp only [icxDecode, index, List.getElem?_cons_zero, List.getElem?_cons_succ, Res.bind_ok, List.length_cons]
    rw [if_neg (by simp), if_neg (by simp), if_neg (by omega)]
    exact (decode_iff _ _).mpr hd

example : HexText (asc "5aAeb6053F3E94C9b9A09f33669435E7Ef1BeAed")
    [0x5a, 0xae, 0xb6, 0x05, 0x3f, 0x3e, 0x94, 0xc9, 0xb9, 0xa0, 0x9f, 0x33, 0x66, 0x94, 0x35, 0xe7, 0xef, 0x1b, 0xea, 0xed] :=
  (decode_iff _ _).mp (by decide +kernel)

namespace Eip

theorem nibble_lt (b : Bytes) (i : Nat) : nibble b i < 16 := by
  unfold nibble
  have := (b.getD (i / 2) 0).toNat_lt
  split <;> omega

theorem checksummed_hexText (digest b : Bytes) : HexText (checksummed digest b) b := by
  refine ⟨by simp [checksummed], ?_⟩
  intro i c hc
  unfold checksummed at hc
  rw [List.getElem?_map] at hc
  cases hr : (List.range (2 * b.length))[i]? with
  | none => rw [hr] at hc; cases hc
  | some j =>
    rw [hr] at hc
    obtain ⟨hl, hj⟩ := List.getElem?_eq_some_iff.mp hr
    rw [List.getElem_range] at hj
    subst hj
    simp only [Option.map_some, Option.some.injEq] at hc
    have hn := nibble_lt b i
    subst hc
    unfold Spells
    rw [UInt8.toNat_ofNat']
    split_ifs <;> omega

end Eip

/-- C138 fails: no capitalisation is checked. Whatever text EIP-55 prescribes for twenty bytes, and whatever letter of it is written in the other case, the
wrong text is accepted as well and stands for the same bytes. -/
theorem C138_checksum_violated (H : Hashes) (a : AddressType) (hE : a.encodeType = asc "eip55") (p : Bytes) (hp : p.length = 20)
    (i : Nat) (hi : i < 40) (hl : 10 ≤ nibble p i) :
    let right := checksummed (H.hash .keccak256 (smallHex p)) p
    addressDecode H right a = .ok p ∧
    ∃ c, c ≠ right.getD i 0 ∧ addressDecode H (right.set i c) a = .ok p ∧ addressDecode H (asc "0x" ++ right.set i c) a = .ok p := by
  intro right
  have hr : HexText right p := checksummed_hexText _ _
  have hrl : right.length = 40 := by rw [hr.1, hp]
  have hn := nibble_lt p i
  refine ⟨(C138_accepted H a hE _ p).mpr ⟨hp, right, Or.inl rfl, hr⟩, ?_⟩
  have hsp := hr.2 i (right.getD i 0) (by rw [List.getD_eq_getElem?_getD, List.getElem?_eq_getElem (by omega)]; rfl)
  have hset : ∀ c : UInt8, Spells c (nibble p i) → HexText (right.set i c) p := by
    intro c hc
    refine ⟨by rw [List.length_set]; exact hr.1, ?_⟩
    intro j e he
    rw [List.getElem?_set] at he
    split_ifs at he with h1
    · subst h1; cases he; exact hc
    · exact hr.2 j e he
  generalize right.getD i 0 = x at hsp
  have key : ∃ c, c ≠ x ∧ Spells c (nibble p i) := by
    unfold Spells at hsp
    by_cases hx : x.toNat = 87 + nibble p i
    · refine ⟨UInt8.ofNat (55 + nibble p i), ?_, ?_⟩
      · rintro rfl; rw [UInt8.toNat_ofNat'] at hx; omega
      · unfold Spells; rw [UInt8.toNat_ofNat']; omega
    · refine ⟨UInt8.ofNat (87 + nibble p i), ?_, ?_⟩
      · rintro rfl; rw [UInt8.toNat_ofNat'] at hx; omega
      · unfold Spells; rw [UInt8.toNat_ofNat']; omega
  obtain ⟨c, h1, h2⟩ := key
  exact ⟨c, h1, (C138_accepted H a hE _ p).mpr ⟨hp, _, Or.inl rfl, hset c h2⟩,
    (C138_accepted H a hE _ p).mpr ⟨hp, _, Or.inr rfl, hset c h2⟩⟩

/-- C138, partial: the letters are all that can be written in two ways. Two texts accepted for the same bytes agree, apart from "0x", once their letters are
made small. -/
theorem C138_spellings_partial (H : Hashes) (a : AddressType) (hE : a.encodeType = asc "eip55") (t u p : Bytes)
    (ht : addressDecode H t a = .ok p) (hu : addressDecode H u a = .ok p) :
    ∃ d e, (t = d ∨ t = asc "0x" ++ d) ∧ (u = e ∨ u = asc "0x" ++ e) ∧
      d.map (fun c => if 65 ≤ c ∧ c ≤ 90 then c + 32 else c) = e.map (fun c => if 65 ≤ c ∧ c ≤ 90 then c + 32 else c) := by
  obtain ⟨_, d, h1, h2⟩ := (C138_accepted H a hE t p).mp ht
  obtain ⟨_, e, h3, h4⟩ := (C138_accepted H a hE u p).mp hu
  refine ⟨d, e, h1, h3, ?_⟩
  have low : ∀ n : Fin 16, ∀ c : Fin 256, Spells (UInt8.ofNat c.val) n.val →
      (if 65 ≤ UInt8.ofNat c.val ∧ UInt8.ofNat c.val ≤ 90 then UInt8.ofNat c.val + 32 else UInt8.ofNat c.val) =
        UInt8.ofNat (if n.val < 10 then 48 + n.val else 87 + n.val) := by decide +kernel
  have low' : ∀ (c : UInt8) (n : Nat), Spells c n → (if 65 ≤ c ∧ c ≤ 90 then c + 32 else c) = UInt8.ofNat (if n < 10 then 48 + n else 87 + n) := by
    intro c n h
    have hn : n < 16 := by unfold Spells at h; omega
    have := low ⟨n, hn⟩ ⟨c.toNat, c.toNat_lt⟩ (by simpa using h)
    simpa using this
  have hlen : d.length = e.length := by rw [h2.1, h4.1]
  refine List.ext_getElem (by simp [hlen]) ?_
  intro i k1 k2
  simp only [List.length_map] at k1 k2
  rw [List.getElem_map, List.getElem_map, low' _ _ (h2.2 i _ (List.getElem?_eq_getElem k1)), low' _ _ (h4.2 i _ (List.getElem?_eq_getElem k2))]

-- the first letter of the first example of EIP-55 in the wrong case
example (H : Hashes) : addressDecode H (asc "5AAeb6053F3E94C9b9A09f33669435E7Ef1BeAed") ETH_mainnetPublicAddress =
    .ok [0x5a, 0xae, 0xb6, 0x05, 0x3f, 0x3e, 0x94, 0xc9, 0xb9, 0xa0, 0x9f, 0x33, 0x66, 0x94, 0x35, 0xe7, 0xef, 0x1b, 0xea, 0xed] :=
  (C138_accepted H _ rfl _ _).mpr ⟨by decide, _, Or.inl rfl, (decode_iff _ _).mp (by decide +kernel)⟩

end Verif
