import Verif.Lemmas.KeyMemory
import Verif.Lemmas.OwToy
import Verif.Props.OwKeychain

/-! C125: nothing a program does with the bytes it gets changes a key or a share. -/

namespace Verif
open Verif.OwKeychain Verif.Mem Verif.KeyMem

/-! ## C125 -/

/-- C125, programs that take neither the private bytes of a key made from a seed nor the `Pubkey` field of a share: after any such program, whatever it
appended to the bytes it got and whatever addresses it made of them, all keys and shares are what they would be if each were a value of its own. -/
theorem C125_history_partial (E : Ext) (grow : Nat → Nat → Nat) (ops : List Op) (hc : Spec.KeyMem.CarefulFrom E ⟨[], []⟩ ops) :
    (run E grow ops).keys.map (Key.view (run E grow ops).heap) = (Spec.KeyMem.values E ops).keys.map Prod.fst ∧
    (run E grow ops).shares.map (Share.view (run E grow ops).heap) = (Spec.KeyMem.values E ops).shares := by
  have I := run_inv E grow ops inv_empty hc
  exact ⟨I.keys, I.shares⟩

theorem KeyMem.run_root (E : Ext) (grow : Nat → Nat → Nat) {seed : Bytes} {c : UInt32} {r : ExtendedKey} (hr : OwKeychain.initRootKey E seed c = .ok r) :
    run E grow [.root seed c, .privateBytes 0] = ⟨[r.key ++ r.chainCode, r.parentFP],
      [⟨r.depth, ⟨1, 0, r.parentFP.length, r.parentFP.length⟩, r.serializes, ⟨0, 32, 32, 32⟩, ⟨0, 0, 32, 64⟩, r.isPrivate, r.curveType⟩], [],
      [⟨0, 0, 32, 64⟩]⟩ := by
  obtain ⟨l1, l2, l3⟩ := root_lengths E hr
  simp only [run, List.foldl_cons, List.foldl_nil, exec, World.empty, KeyMem.initRootKey, hr, Res.bind_ok, alloc, World.addKey, Slice.sub, privateKeyBytes, l1,
    l2, l3, List.nil_append, List.length_append, List.length_nil, List.getElem?_cons_zero, if_true, List.length_cons, List.cons_append]

/-- C125 fails for keys made from a seed: appending up to 32 bytes to the bytes that `GetPrivateKeyBytes` returns overwrites the chain code of the key. -/
theorem C125_seed_violated (E : Ext) (grow : Nat → Nat → Nat) (seed : Bytes) (c : UInt32) (r : ExtendedKey) (hr : OwKeychain.initRootKey E seed c = .ok r)
    (d : Bytes) (hd : d.length ≤ 32) :
    let w := run E grow [.root seed c, .privateBytes 0, .append 0 d]
    w.keys.map (Key.view w.heap) = [{ r with chainCode := d ++ r.chainCode.drop d.length }] := by
  intro w
  obtain ⟨l1, l2, l3⟩ := root_lengths E hr
  have hw : w = exec E grow (run E grow [.root seed c, .privateBytes 0]) (.append 0 d) := rfl
  rw [KeyMem.run_root E grow hr] at hw
  have hp : patch (r.key ++ r.chainCode) 32 d = r.key ++ (d ++ r.chainCode.drop d.length) := by
    unfold patch
    rw [← l1, List.take_left, List.drop_append, List.drop_eq_nil_of_le (by omega)]
    simp
  have e : w.keys.map (Key.view w.heap) = [Key.view [r.key ++ (d ++ r.chainCode.drop d.length), r.parentFP]
      ⟨r.depth, ⟨1, 0, r.parentFP.length, r.parentFP.length⟩, r.serializes, ⟨0, 32, 32, 32⟩, ⟨0, 0, 32, 64⟩, r.isPrivate, r.curveType⟩] := by
    rw [hw]
    simp only [exec, List.getElem?_cons_zero, Mem.append]
    rw [if_pos (by omega)]
    simp only [write, List.modify_zero_cons, Nat.zero_add, hp, List.map_cons, List.map_nil]
  rw [e]
  have hl : (d ++ r.chainCode.drop d.length).length = 32 := by simp only [List.length_append, List.length_drop]; omega
  generalize d ++ r.chainCode.drop d.length = cc at hl
  have e1 : ((r.key ++ cc).drop 32).take 32 = cc := by rw [← l1, List.drop_left, l1, List.take_of_length_le (by omega)]
  simp [Key.view, Mem.read, array, e1]
  rw [← l1, List.take_left]

/-- C125 fails for shares: `ChainDecode` puts key and chain code into one array, so `AddressEncode` of the field `Pubkey` of a share of an EOS key (33
bytes) or an aeternity key (32 bytes) overwrites the first four bytes of the field `ChainCode`; `ChianEncode` then gives another text. -/
theorem C125_share_violated (E : Ext) (grow : Nat → Nat → Nat) (text : Bytes) (r : MultiSigShare) (hr : OwKeychain.chainDecode text = .ok r)
    (a : Addr.AddressType) (ha : a = Addr.EOS_mainnetPublic ∨ a = Addr.AE_mainnetAddress) (hl : r.pubkey.length = a.hashLen) :
    let w := run E grow [.chainDecode text, .sharePubkey 0, .address 0 a]
    ∃ c, Spec.IsChecksum E.H a.checksumType r.pubkey c ∧
      w.shares.map (Share.view w.heap) = [{ r with chainCode := c ++ r.chainCode.drop 4 }] ∧
      (c ≠ r.chainCode.take 4 → chainEncode { r with chainCode := c ++ r.chainCode.drop 4 } ≠ chainEncode r) := by
  intro w
  obtain ⟨d, h1, h2, h3, h4⟩ := chainDecode_parts hr
  -- The slices of the share.
  let sp : Slice := if r.pubkey.length = 33 then ⟨0, 7, 33, 69⟩ else ⟨0, 8, 32, 68⟩
  have hsp : (if r.pubkey.length = 33 then Slice.sub ⟨0, 0, 76, 76⟩ 7 40 else (Slice.sub ⟨0, 0, 76, 76⟩ 7 40).sub 1 33) = sp := by
    simp only [Slice.sub, sp]
  have h0 : run E grow [.chainDecode text, .sharePubkey 0] = ⟨[d], [], [⟨sp, ⟨0, 40, 32, 36⟩, r.curveType⟩], [sp]⟩ := by
    simp only [run, List.foldl_cons, List.foldl_nil, exec, World.empty, KeyMem.chainDecode, hr, h1, Res.bind_ok, alloc, List.nil_append, List.length_nil,
      List.getElem?_cons_zero, h2, hsp]
    rfl
  have hsl : sp.len = r.pubkey.length ∧ sp.arr = 0 ∧ sp.off + sp.len = 40 ∧ sp.len + 4 ≤ sp.cap := by
    simp only [sp]
    rcases h4 with ⟨l, _⟩ | ⟨l, _⟩
    · rw [if_pos l, l]; exact ⟨rfl, rfl, rfl, by decide⟩
    · rw [if_neg (by omega), l]; exact ⟨rfl, rfl, rfl, by decide⟩
  have hrp : ∀ g : Bytes, g.take 40 = d.take 40 → read [g] sp = r.pubkey := by
    intro g hg
    have e : ∀ i n, i + n = 40 → (g.drop i).take n = (d.take 40).drop i := by
      intro i n hi
      rw [← hg, List.drop_take, ← hi, Nat.add_sub_cancel_left]
    simp only [sp, Mem.read]
    rcases h4 with ⟨l, e1⟩ | ⟨l, e1⟩
    · rw [if_pos l]
      simp only [array, List.getD_cons_zero]
      rw [e 7 33 rfl, e1]
    · rw [if_neg (by omega)]
      simp only [array, List.getD_cons_zero]
      rw [e 8 32 rfl, e1]
  obtain ⟨c, c1, c2, c3⟩ := AddrMem.addressEncode_prefixed E.H grow ha (s := sp) (by omega) (h := [d])
  rw [hrp d rfl] at c1
  have hw : w = ⟨[d.take 40 ++ c ++ d.drop 44], [], [⟨sp, ⟨0, 40, 32, 36⟩, r.curveType⟩], [sp]⟩ := by
    have hw : w = exec E grow (run E grow [.chainDecode text, .sharePubkey 0]) (.address 0 a) := rfl
    rw [h0] at hw
    rw [hw]
    simp only [exec, List.getElem?_cons_zero]
    rw [c3]
    unfold Mem.append
    rw [if_pos (by omega)]
    simp only [write, hsl.2.1, List.modify_zero_cons, hsl.2.2.1, patch, c2]
  refine ⟨c, (Addr.calcChecksum_iff E.H _ _ _).mp c1, ?_, ?_⟩
  · rw [hw]
    simp only [List.map_cons, List.map_nil, Share.view]
    rw [hrp]
    · congr 2
      simp only [Mem.read, array, List.getD_cons_zero]
      rw [List.append_assoc, List.drop_append, List.drop_eq_nil_of_le (by simp), List.nil_append]
      have : 40 - (d.take 40).length = 0 := by simp [h2]
      rw [this, List.drop_zero, List.take_append, List.take_of_length_le (by omega), c2, h3, List.drop_drop, List.drop_take]
    · rw [List.append_assoc, List.take_append_of_le_length (by simp [h2]), List.take_take, Nat.min_self]
  · intro hne he
    have lcc : r.chainCode.length = 32 := by rw [h3]; simp [h2]
    unfold chainEncode at he
    simp only at he
    generalize chainPrefix ++ (if r.pubkey.length = 32 then [0] else []) ++ r.pubkey = front at he
    obtain ⟨t, e1, _, e3⟩ := C01_base58_roundtrip alphabet alphabet_ok (front ++ (c ++ r.chainCode.drop 4) ++ beBytes 4 r.curveType.toNat)
    obtain ⟨t', e1', _, e3'⟩ := C01_base58_roundtrip alphabet alphabet_ok (front ++ r.chainCode ++ beBytes 4 r.curveType.toNat)
    rw [e1, e1'] at he
    rw [Res.ok.inj he, e3'] at e3
    have e4 := List.append_cancel_right (Res.ok.inj e3)
    have e5 := List.append_cancel_left e4
    apply hne
    rw [e5, List.take_append_of_le_length (by omega), List.take_of_length_le (by omega)]

/-- A careful program that derives two children of a seed key, takes the private bytes of one, appends to them, and makes addresses of them: it has three
keys. -/
example : let E := toyExt (List.replicate 64 1) rfl
    let ops : List Op := [.root (List.replicate 16 5) toyIds.secp256k1, .privateChild 0 7, .publicKey 1, .privateBytes 1, .append 0 [1, 2, 3],
      .publicBytes 2, .address 0 Addr.AE_mainnetAddress, .address 2 Addr.EOS_mainnetPublic]
    Spec.KeyMem.CarefulFrom E ⟨[], []⟩ ops ∧ (Spec.KeyMem.values E ops).keys.length = 3 := by
  refine ⟨⟨trivial, trivial, trivial, ?_, trivial, trivial, trivial, trivial, trivial⟩, by decide +kernel⟩
  intro x h
  have : ((Spec.KeyMem.values (toyExt (List.replicate 64 1) rfl) [.root (List.replicate 16 5) toyIds.secp256k1, .privateChild 0 7, .publicKey 1]).keys[1]?).map
      Prod.snd = some true := by
    exact (congrArg (Option.map Prod.snd) h)
  revert this
  decide +kernel

/-- A seed is accepted; a share of an EOS key is accepted. -/
example : (OwKeychain.initRootKey (toyExt (List.replicate 64 1) rfl) (List.replicate 16 5) toyIds.secp256k1).isOk = true ∧
    (match chainEncode ⟨2 :: List.replicate 32 7, List.replicate 32 9, toyIds.secp256k1⟩ with
      | .ok t => (match OwKeychain.chainDecode t with
        | .ok r => r == ⟨2 :: List.replicate 32 7, List.replicate 32 9, toyIds.secp256k1⟩
        | _ => false)
      | _ => false) = true ∧
    (2 :: List.replicate 32 (7 : UInt8)).length = Addr.EOS_mainnetPublic.hashLen := by
  decide +kernel

end Verif
