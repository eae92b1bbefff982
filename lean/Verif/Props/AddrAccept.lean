import Verif.Spec.Accept
import Verif.Props.Starts
import Verif.Props.Address

/-! Property C148: `AddressCheck` and the addresses `AddressEncode` makes. -/

namespace Verif
open Spec Spec.Starts Spec.Accept Addr Starts

namespace AddrAccept

/-- The rule that decides all texts that start with `s`: `none` if these characters do not settle it. -/
def route (s : Bytes) : List (Bytes × AddressType) → Option (Option AddressType)
  | [] => some none
  | (w, a) :: rest =>
    if w.isPrefixOf s then some (some a) else if s.isPrefixOf w then none else route s rest

theorem hasChars_true : ∀ (w x t : Bytes), w <+: t → hasChars (x ++ t) x.length w = .ok true
  | [], _, _, _ => rfl
  | c :: cs, x, t, h => by
    obtain ⟨r, rfl⟩ := h
    unfold hasChars
    rw [List.cons_append, index_append_right]
    simp only [if_true]
    have := hasChars_true cs (x ++ [c]) (cs ++ r) ⟨r, rfl⟩
    simpa using this

theorem hasChars_false : ∀ (w s x t : Bytes), s <+: t → ¬ w <+: s → ¬ s <+: w → hasChars (x ++ t) x.length w = .ok false
  | [], s, _, _, _, h, _ => absurd (List.nil_prefix) h
  | c :: cs, [], _, _, _, _, h => absurd (List.nil_prefix) h
  | c :: cs, d :: ds, x, t, hs, h1, h2 => by
    obtain ⟨r, rfl⟩ := hs
    unfold hasChars
    rw [List.cons_append, index_append_right]
    simp only
    by_cases hcd : d = c
    · subst hcd
      rw [if_pos rfl]
      have := hasChars_false cs ds (x ++ [d]) (ds ++ r) ⟨r, rfl⟩ (fun h => h1 (List.cons_prefix_cons.mpr ⟨rfl, h⟩))
        (fun h => h2 (List.cons_prefix_cons.mpr ⟨rfl, h⟩))
      simpa using this
    · rw [if_neg hcd]

theorem route_spec (H : Hashes) {s t : Bytes} (hs : s <+: t) : ∀ (rules : List (Bytes × AddressType)) (o : Option AddressType),
    route s rules = some o → tryRules H t rules = match o with
      | none => .err
      | some a => (addressDecode H t a).bind fun _ => .ok true
  | [], o, h => by
    simp only [route, Option.some.injEq] at h
    subst h
    rfl
  | (w, a) :: rest, o, h => by
    unfold route at h
    unfold tryRules
    split at h
    · rename_i hw
      cases h
      have hw := List.isPrefixOf_iff_prefix.mp hw
      have := hasChars_true w [] t (hw.trans hs)
      simp only [List.nil_append, List.length_nil] at this
      rw [this]
      rfl
    · rename_i hw
      split at h
      · cases h
      · rename_i hw2
        have := hasChars_false w s [] t hs (fun c => hw (List.isPrefixOf_iff_prefix.mpr c)) (fun c => hw2 (List.isPrefixOf_iff_prefix.mpr c))
        simp only [List.nil_append, List.length_nil] at this
        rw [this]
        exact route_spec H hs rest o h

/-- What is known about the texts of a profile (C145): their first characters and their length. -/
def candidates (a : AddressType) : List (List Bytes × Nat) :=
  (documented.filter fun e => decide (e.1 = a)).map (fun e => e.2) ++
  (never.filter fun e => decide (e.1 = a)).map (fun e => ([e.2.2.1], e.2.2.2)) ++
  (sometimes.filter fun e => decide (e.1 = a)).map (fun e => ([e.2.1, e.2.2.1], e.2.2.2)) ++
  (sometimes.filter fun e => decide (e.1 = a)).map (fun e => ([e.2.2.1, e.2.1], e.2.2.2))

/-- The rules send these texts to the profile itself. -/
def goesHome (sym : Bytes) (a : AddressType) (s : Bytes) : Bool :=
  match rulesOf sym with
  | none => false
  | some rules => decide (route s rules = some (some a))

/-- No rule applies to these texts, or the profile of the rule has another version. -/
def goesAstray (sym : Bytes) (a : AddressType) (s : Bytes) : Bool :=
  match rulesOf sym with
  | none => false
  | some rules =>
    match route s rules with
    | none => false
    | some none => true
    | some (some b) => decide (b ∈ profiles) && decide (b.encodeType = asc "base58") && decide (a.alphabet = b.alphabet) &&
        decide ((a.pre.getD []).length = (b.pre.getD []).length) && decide (a.pre.getD [] ≠ b.pre.getD [])

def okEntry (f : Bytes → AddressType → Bytes → Bool) (e : Bytes × AddressType) : Bool :=
  decide (e.2 ∈ profiles) && hash20 e.2 && (candidates e.2).any fun c => entry e.2 c.1 c.2 && decide (17 ≤ c.2) && c.1.all (f e.1 e.2)

theorem accepted_ok : ∀ e ∈ accepted, okEntry goesHome e = true := by decide +kernel
theorem refused_ok : ∀ e ∈ refused, okEntry goesAstray e = true := by decide +kernel

theorem okEntry_spec (H : Hashes) {f : Bytes → AddressType → Bytes → Bool} {sym : Bytes} {a : AddressType}
    (h : okEntry f (sym, a) = true) (data : Bytes) :
    ∃ t p s, addressEncode H data a = .ok t ∧ addressDecode H t a = .ok p ∧ s <+: t ∧ f sym a s = true ∧ 17 ≤ t.length ∧
      a ∈ profiles ∧ a.encodeType = asc "base58" := by
  unfold okEntry at h
  simp only [Bool.and_eq_true, decide_eq_true_eq, List.any_eq_true, List.all_eq_true] at h
  obtain ⟨⟨h1, h2⟩, c, _, ⟨h3, h4⟩, h5⟩ := h
  have hE := (entry_parts h3).1
  obtain ⟨p, hp, e⟩ := hashed H hE (hash20_spec H h2) data
  obtain ⟨t, k1, k2, s, hs, k3⟩ := covered H h3 p hp
  obtain ⟨t', _, _, _, k4, k5⟩ := C03_base58check_roundtrip H a h1 hE p hp
  rw [k1] at k4
  cases k4
  exact ⟨t, p, s, e.trans k1, k5, k3, h5 s hs, by omega, h1, hE⟩

end AddrAccept
open AddrAccept

/-- C148 for the profiles of the list: whatever public key or 20-byte hash is given, `AddressCheck` accepts the address
under the symbol of its coin. -/
theorem C148_accepts_partial (H : Hashes) (symbol : Bytes) (a : AddressType) (ha : (symbol, a) ∈ accepted) (data : Bytes) :
    ∃ t, addressEncode H data a = .ok t ∧ addressCheck H t symbol = .ok true := by
  obtain ⟨t, p, s, h1, h2, h3, h4, _⟩ := okEntry_spec H (accepted_ok _ ha) data
  refine ⟨t, h1, ?_⟩
  unfold goesHome at h4
  unfold addressCheck
  split at h4
  · cases h4
  · rename_i rules hr
    rw [hr]
    simp only
    rw [route_spec H h3 rules _ (of_decide_eq_true h4)]
    simp only [h2, Res.bind]

/-- C148 for the addresses of version 0 of Bitcoin and Bitcoin Cash. -/
theorem C148_accepts_zero (H : Hashes) (symbol : Bytes) (a : AddressType) (ha : (symbol, a) ∈ acceptedZero) (data : Bytes) :
    ∃ t, addressEncode H data a = .ok t ∧ addressCheck H t symbol = .ok true := by
  have hz : ∀ e ∈ acceptedZero, (e.2, asc "1") ∈ zeroVersion ∧ e.2 ∈ profiles ∧ goesHome e.1 e.2 (asc "1") = true := by
    decide +kernel
  obtain ⟨z1, z2, z3⟩ := hz _ ha
  obtain ⟨t, h1, _, _, h2⟩ := C145_zero H a (asc "1") z1 data
  obtain ⟨hE, _⟩ := zero_ok _ z1
  obtain ⟨p, hp, e⟩ := hashed H hE (hash20_spec H (hash_ok'.2.1 _ z1)) data
  obtain ⟨t', _, _, _, k4, k5⟩ := C03_base58check_roundtrip H a z2 hE p hp
  rw [e, k4] at h1
  cases h1
  refine ⟨t, e.trans k4, ?_⟩
  unfold goesHome at z3
  unfold addressCheck
  split at z3
  · cases z3
  · rename_i rules hr
    rw [hr]
    simp only
    rw [route_spec H h2 rules _ (of_decide_eq_true z3)]
    simp only [k5, Res.bind]

theorem AddrAccept.accept_of (H : Hashes) {symbol s t p : Bytes} {a : AddressType} (h : goesHome symbol a s = true)
    (hs : s <+: t) (hd : addressDecode H t a = .ok p) : addressCheck H t symbol = .ok true := by
  unfold goesHome at h
  unfold addressCheck
  split at h
  · cases h
  · rename_i rules hr
    rw [hr]
    simp only
    rw [route_spec H hs rules _ (of_decide_eq_true h)]
    simp only [hd, Res.bind]

/-- C148 for the segwit addresses of Bitcoin and Litecoin, of a 20-byte or a 32-byte hash. -/
theorem C148_accepts_segwit (H : Hashes) (symbol : Bytes) (a : AddressType)
    (ha : (symbol, a) ∈ [(asc "BTC", BTC_mainnetAddressBech32V0), (asc "BTC", BTC_testnetAddressBech32V0),
      (asc "LTC", LTC_mainnetAddressBech32V0), (asc "LTC", LTC_testnetAddressBech32V0)])
    (p : Bytes) (hp : p.length = 20 ∨ p.length = 32) :
    ∃ t, addressEncode H p a = .ok t ∧ addressCheck H t symbol = .ok true := by
  have hz : ∀ e ∈ [(asc "BTC", BTC_mainnetAddressBech32V0), (asc "BTC", BTC_testnetAddressBech32V0),
      (asc "LTC", LTC_mainnetAddressBech32V0), (asc "LTC", LTC_testnetAddressBech32V0)],
      e.2 ∈ profiles ∧ e.2.encodeType = asc "bech32" ∧ e.2.pre = some [0] ∧
        ∃ f ∈ fronted, f.1 = e.2 ∧ goesHome e.1 e.2 f.2 = true := by
    decide +kernel
  obtain ⟨z1, z2, z3, f, z4, z5, z6⟩ := hz _ ha
  dsimp only at z1 z2 z3 z5 z6
  obtain ⟨t, h1, h2⟩ := C07_bech32_roundtrip_partial H a z1 z2 p (hp.imp_right fun h => ⟨h, z3⟩)
  exact ⟨t, h1, accept_of H z6 (C145_front H a f.2 (by rw [← z5]; exact z4) p t h1) h2⟩

/-- C148 for the cashaddr addresses of a type byte 0 and a 20-byte hash. -/
theorem C148_accepts_cashaddr (H : Hashes) (h : Bytes) (hh : h.length = 20) :
    ∃ t, addressEncode H (0 :: h) BCH_mainnetAddressCash = .ok t ∧ addressCheck H t (asc "BCH") = .ok true := by
  obtain ⟨t, h1, h2⟩ := C12_cashaddr_roundtrip_partial H h hh
  exact ⟨t, h1, accept_of H (by decide +kernel) (C145_front H _ (asc "bitcoincash:") (by decide +kernel) _ t h1) h2⟩

/-- C148 for ICON and Ethereum: a public key or a hash. -/
theorem C148_accepts_hex (H : Hashes) (data : Bytes) :
    (∃ t, addressEncode H data ICX_walletAddress = .ok t ∧ addressCheck H t (asc "ICX") = .ok true) ∧
    (∃ t, addressEncode H data ETH_mainnetPublicAddress = .ok t ∧ addressCheck H t (asc "ETH") = .ok true ∧
      addressCheck H (asc "0x" ++ t) (asc "ETH") = .ok true) := by
  constructor
  · obtain ⟨p, hp, e⟩ : ∃ p : Bytes, p.length = 20 ∧ addressEncode H data ICX_walletAddress = addressEncode H p ICX_walletAddress := by
      have u : ∀ x, addressEncode H x ICX_walletAddress =
        .ok (asc "hx" ++ Hex.encode (if x.length ≠ 20 then calcHash H x (asc "sha3_256_last_twenty") else x)) := fun _ => rfl
      by_cases hd : data.length = 20
      · exact ⟨data, hd, rfl⟩
      · have hl : (calcHash H data (asc "sha3_256_last_twenty")).length = 20 := by
          show ((H.hash .sha3_256 data).drop 12).length = 20
          simp [H.size, Alg.size]
        refine ⟨_, hl, ?_⟩
        rw [u, u]
        simp [hd, hl]
    obtain ⟨h1, h2⟩ := C13_icx_roundtrip H p hp
    exact ⟨_, e.trans h1, accept_of H (s := asc "hx") (by decide +kernel) ⟨_, rfl⟩ h2⟩
  · obtain ⟨p, hp, e⟩ : ∃ p : Bytes, p.length = 32 ∧ addressEncode H data ETH_mainnetPublicAddress = addressEncode H p ETH_mainnetPublicAddress := by
      have u : ∀ d, addressEncode H d ETH_mainnetPublicAddress =
        eip55Encode (if d.length ≠ 32 then calcHash H d (asc "keccak256") else d) := fun _ => rfl
      by_cases hd : data.length = 32
      · exact ⟨data, hd, rfl⟩
      · have hl : (calcHash H data (asc "keccak256")).length = 32 := by
          show (H.hash .keccak256 data).length = 32
          simp [H.size, Alg.size]
        refine ⟨_, hl, ?_⟩
        rw [u, u]
        simp [hd, hl]
    obtain ⟨h1, h2, h3⟩ := C13_eip55_roundtrip_partial H p hp
    exact ⟨_, e.trans h1, accept_of H (s := []) (by decide +kernel) ⟨_, rfl⟩ h2,
      accept_of H (s := []) (by decide +kernel) ⟨_, rfl⟩ h3⟩

theorem AddrAccept.refuse_of (H : Hashes) {symbol s t p : Bytes} {a : AddressType} (h : goesAstray symbol a s = true)
    (hs : s <+: t) (ha : a ∈ profiles) (hE : a.encodeType = asc "base58") (hl : 17 ≤ t.length)
    (hd : addressDecode H t a = .ok p) : addressCheck H t symbol = .err := by
  unfold goesAstray at h
  unfold addressCheck
  split at h
  · cases h
  · rename_i rules hr
    rw [hr]
    simp only
    split at h
    · cases h
    · rename_i hro
      rw [route_spec H hs rules _ hro]
    · rename_i b hro
      simp only [Bool.and_eq_true, decide_eq_true_eq] at h
      obtain ⟨⟨⟨⟨h1, h2⟩, h3⟩, h4⟩, h5⟩ := h
      rw [route_spec H hs rules _ hro]
      simp only
      have n1 : ∀ q, addressDecode H t b ≠ .ok q := fun q => C04_versions_disjoint H a b ha hE h2 h3 h4 h5 t p q hd
      have n2 : addressDecode H t b ≠ .panic :=
        C05_decode_no_panic_partial H b h1 t ⟨fun _ => hl, fun c => by rw [h2] at c; exact absurd c (by decide),
          fun c => by rw [h2] at c; exact absurd c (by decide), fun _ => by omega⟩
      cases hdb : addressDecode H t b with
      | ok q => exact absurd hdb (n1 q)
      | panic => exact absurd hdb n2
      | err => rfl

/-- C148 is false under these profiles of the same coins: every address is refused, whatever public key or hash it is made of. -/
theorem C148_refuses_violated (H : Hashes) (symbol : Bytes) (a : AddressType) (ha : (symbol, a) ∈ refused) (data : Bytes) :
    ∃ t, addressEncode H data a = .ok t ∧ addressCheck H t symbol = .err := by
  obtain ⟨t, p, s, h1, h2, h3, h4, h5, h6, h7⟩ := okEntry_spec H (refused_ok _ ha) data
  exact ⟨t, h1, refuse_of H h4 h3 h6 h7 h5 h2⟩

/-- C148 is false for Nebulas contracts: an address is accepted exactly when it starts with "n2", refused when it starts with
"n1", and both occur. -/
theorem C148_nebulas_violated (H : Hashes) :
    (∀ data, ∃ t, addressEncode H data NAS_SmartContractAddress = .ok t ∧
      ((asc "n2" <+: t ∧ addressCheck H t (asc "NAS") = .ok true) ∨ (asc "n1" <+: t ∧ addressCheck H t (asc "NAS") = .err))) ∧
    (∃ p t, p.length = 20 ∧ addressEncode H p NAS_SmartContractAddress = .ok t ∧ addressCheck H t (asc "NAS") = .ok true) ∧
    ∃ p t, p.length = 20 ∧ addressEncode H p NAS_SmartContractAddress = .ok t ∧ addressCheck H t (asc "NAS") = .err := by
  have hm : (NAS_SmartContractAddress, asc "n2", asc "n1", 35) ∈ sometimes := by decide +kernel
  have hpr : NAS_SmartContractAddress ∈ profiles := by decide +kernel
  obtain ⟨q1, ⟨p2, l2, t2, e2, s2⟩, p3, l3, t3, e3, s3, _⟩ := C145_sometimes_violated H _ _ _ _ hm
  have dec : ∀ data t, addressEncode H data NAS_SmartContractAddress = .ok t → ∃ p, addressDecode H t NAS_SmartContractAddress = .ok p := by
    intro data t ht
    obtain ⟨p, hp, e⟩ := hashed H (a := NAS_SmartContractAddress) rfl (hash20_spec H (hash_ok'.2.2 _ hm)) data
    obtain ⟨t', _, _, _, k4, k5⟩ := C03_base58check_roundtrip H _ hpr rfl p hp
    rw [e, k4] at ht
    cases ht
    exact ⟨p, k5⟩
  have acc : ∀ data t, addressEncode H data NAS_SmartContractAddress = .ok t → asc "n2" <+: t → addressCheck H t (asc "NAS") = .ok true := by
    intro data t ht hs
    obtain ⟨p, hp⟩ := dec data t ht
    exact accept_of H (by decide +kernel) hs hp
  have rej : ∀ data t, addressEncode H data NAS_SmartContractAddress = .ok t → asc "n1" <+: t → addressCheck H t (asc "NAS") = .err := by
    intro data t ht hs
    obtain ⟨p, hp⟩ := dec data t ht
    obtain ⟨t', k1, k2, _⟩ := q1 data
    rw [ht] at k1
    cases k1
    exact refuse_of H (s := asc "n1") (by decide +kernel) hs hpr rfl (by omega) hp
  refine ⟨fun data => ?_, ⟨p2, t2, l2, e2, acc _ _ e2 s2⟩, ⟨p3, t3, l3, e3, rej _ _ e3 s3⟩⟩
  obtain ⟨t, k1, _, k3 | k3⟩ := q1 data
  · exact ⟨t, k1, .inl ⟨k3, acc _ _ k1 k3⟩⟩
  · exact ⟨t, k1, .inr ⟨k3, rej _ _ k1 k3⟩⟩

/-- C148 is false for Bitcoin Cash when only the 20-byte hash is given, as for all other coins: the address made is refused. -/
theorem C148_cash_hash_violated (H : Hashes) (h : Bytes) (hh : h.length = 20) :
    ∃ t, addressEncode H h BCH_mainnetAddressCash = .ok t ∧ addressCheck H t (asc "BCH") = .err := by
  obtain ⟨t, h1, h2⟩ := C12_bare_hash_violated H h hh
  refine ⟨t, h1, ?_⟩
  unfold addressCheck
  cases hr : rulesOf (asc "BCH") with
  | none => exact absurd hr (by decide +kernel)
  | some rules =>
    simp only
    have hg : goesHome (asc "BCH") BCH_mainnetAddressCash (asc "bitcoincash:") = true := by decide +kernel
    unfold goesHome at hg
    rw [hr] at hg
    rw [route_spec H (C145_front H _ (asc "bitcoincash:") (by decide +kernel) _ t h1) rules _ (of_decide_eq_true hg)]
    simp only [h2, Res.bind]

/-- The theorems above speak of every profile that a rule of `AddressCheck` names. -/
theorem C148_listed (symbol : Bytes) (l : List AddressType) (h : (symbol, l) ∈ coinProfiles) (a : AddressType) (ha : a ∈ l) :
    (symbol, a) ∈ accepted ∨ (symbol, a) ∈ acceptedZero ∨
    a ∈ [BTC_mainnetAddressBech32V0, BTC_testnetAddressBech32V0, LTC_mainnetAddressBech32V0, LTC_testnetAddressBech32V0,
      BCH_mainnetAddressCash, ICX_walletAddress, ETH_mainnetPublicAddress, NAS_SmartContractAddress] := by
  have hall : ∀ e ∈ coinProfiles, ∀ a ∈ e.2, (e.1, a) ∈ accepted ∨ (e.1, a) ∈ acceptedZero ∨
    a ∈ [BTC_mainnetAddressBech32V0, BTC_testnetAddressBech32V0, LTC_mainnetAddressBech32V0, LTC_testnetAddressBech32V0,
      BCH_mainnetAddressCash, ICX_walletAddress, ETH_mainnetPublicAddress, NAS_SmartContractAddress] := by decide +kernel
  exact hall _ h a ha

/-- C148, for texts however they came about: what `AddressDecode` accepts under a profile of the list is accepted by
`AddressCheck`. -/
theorem C148_decodable (H : Hashes) (symbol : Bytes) (a : AddressType) (ha : (symbol, a) ∈ accepted ∨ (symbol, a) ∈ acceptedZero)
    (t p : Bytes) (h : addressDecode H t a = .ok p) : addressCheck H t symbol = .ok true := by
  have hz : ∀ e ∈ accepted ++ acceptedZero, e.2 ∈ profiles ∧ e.2.encodeType = asc "base58" := by decide +kernel
  obtain ⟨h1, h2⟩ := hz (symbol, a) (List.mem_append.mpr ha)
  obtain ⟨_, he⟩ := C04_accepted_text_unique H a h1 h2 t t p h h
  rcases ha with ha | ha
  · obtain ⟨t', e1, e2⟩ := C148_accepts_partial H symbol a ha p
    rw [he] at e1
    cases e1
    exact e2
  · obtain ⟨t', e1, e2⟩ := C148_accepts_zero H symbol a ha p
    rw [he] at e1
    cases e1
    exact e2

/-- C06 and its converse for the seven coins with Base58 addresses only: `AddressCheck` answers true exactly for the texts that
decode under one of the coin's profiles. -/
theorem C06_exact_base58 (H : Hashes) (symbol : Bytes) (l : List AddressType) (hl : (symbol, l) ∈ coinProfiles)
    (hs : symbol ∈ [asc "ZEC", asc "XTZ", asc "HC", asc "QTUM", asc "DCRD", asc "TRX", asc "VSYS"]) (t : Bytes) :
    addressCheck H t symbol = .ok true ↔ ∃ a ∈ l, ∃ p, addressDecode H t a = .ok p := by
  constructor
  · intro h
    obtain ⟨_, l', a, p, h1, h2, h3⟩ := C06_check_sound_partial H t symbol (List.mem_map.mpr ⟨_, hl, rfl⟩) true h
    have huniq : ∀ x ∈ coinProfiles, ∀ y ∈ coinProfiles, x.1 = y.1 → x.2 = y.2 := by decide +kernel
    have : l = l' := huniq _ hl _ h1 rfl
    subst this
    exact ⟨a, h2, p, h3⟩
  · rintro ⟨a, ha, p, hp⟩
    have hall : ∀ e ∈ coinProfiles, e.1 ∈ [asc "ZEC", asc "XTZ", asc "HC", asc "QTUM", asc "DCRD", asc "TRX", asc "VSYS"] →
        ∀ a ∈ e.2, (e.1, a) ∈ accepted := by decide +kernel
    exact C148_decodable H symbol a (.inl (hall _ hl hs a ha)) t p hp

/-- A Decred public key hash. -/
example (H : Hashes) : ∃ t, addressEncode H (List.replicate 20 7) DCRD_mainnetAddressP2PKH = .ok t ∧
    addressCheck H t (asc "DCRD") = .ok true :=
  C148_accepts_partial H _ _ (by decide +kernel) _

/-- A Litecoin script address on the test network ("Q...") and a HyperCash script address ("Hc...") of any public key. -/
example (H : Hashes) (key : Bytes) :
    (∃ t, addressEncode H key LTC_testnetAddressP2SH2 = .ok t ∧ addressCheck H t (asc "LTC") = .err) ∧
    ∃ t, addressEncode H key HC_mainnetAddressP2SH = .ok t ∧ addressCheck H t (asc "HC") = .err :=
  ⟨C148_refuses_violated H _ _ (by decide +kernel) _, C148_refuses_violated H _ _ (by decide +kernel) _⟩

end Verif
