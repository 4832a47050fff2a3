import Verif.Lemmas.Preimage
/-! C74 (contract ids) and C75 (the payloads of authorization entries). -/
namespace Soroban.Props
open Soroban.Spec Soroban.Preimage Soroban.Preimage.Spec
open Soroban.Xdr.Spec (AddrFits Wire Holds AllBytes)
open Soroban.AssetMeta (Asset)

section C74
variable {E : Cfg} {objs objs' : List HostObj}

/-- C74: `get_contract_id` succeeds exactly for a deployer that is an address and a salt of 32 bytes, and then returns the address of
the contract whose id is the hash of the network id, the deployer and the salt. -/
theorem C74_contract_id {dep salt : Nat} {a : ScAddr} {s : List Nat} (hn : E.network.length = 32) (hl : objs.length + 2 ≤ 2 ^ 31)
    (hsz : ∀ o ∈ objs, Xdr.Spec.ObjSized o) (ha : visitObj objs dep = .ok (.address a)) (hs : Holds objs salt s) :
    (s.length = 32 → ∃ objs' h, getContractId E objs dep salt = .ok (objs', h) ∧ (∃ new, objs' = objs ++ new) ∧
      visitObj objs' h = .ok (.address (.contract (E.sha (idMessage E.network a s))))) ∧
    (s.length ≠ 32 → getContractId E objs dep salt = .error (.host .object .unexpectedSize)) := by
  have ha' := visitAddress_iff.mpr ha
  have hf : AddrFits a := hsz _ (visitObj_mem ha)
  constructor
  · intro h32
    have hb := bytes32_iff.mpr ⟨hs, h32⟩
    have hid := idOf_eq (E := E) (objs := objs) (id := .address a s) hn (by omega) ⟨hf, h32⟩
    obtain ⟨v, hv⟩ := addObj_ok (os := objs ++ [.bytes E.network]) (.address (.contract (E.sha (idMessage E.network a s))))
      (by rw [List.length_append]; simp; omega)
    refine ⟨_, v, ?_, ⟨[.bytes E.network, _], by rw [List.append_assoc]; rfl⟩, (addObj_visit (by rw [List.length_append]; simp; omega) hv).1⟩
    unfold getContractId addressPreimage
    simp only [ha', hb, hid, bind, Except.bind, idMessage_eq, hv]
  · intro h32
    unfold getContractId addressPreimage bytes32 visitBytes
    rw [hs]
    simp only [ha', bind, Except.bind, Signatures.fixedLength, if_neg h32]
    rfl

/-- C74, of assets: `get_asset_contract_id` succeeds exactly for the XDR form of an asset, and then returns the address of the contract
whose id is the hash of the network id and the asset. -/
theorem C74_asset_id {h : Nat} {b : List Nat} (hn : E.network.length = 32) (hl : objs.length + 2 ≤ 2 ^ 31) (hb : AllBytes b)
    (hh : Holds objs h b) :
    (∀ a, b = AssetMeta.Spec.xdr a → AssetFits a → ∃ objs' v, getAssetContractId E objs h = .ok (objs', v) ∧
      (∃ new, objs' = objs ++ new) ∧ visitObj objs' v = .ok (.address (.contract (E.sha (assetMessage E.network a))))) ∧
    (∀ r, getAssetContractId E objs h = .ok r → ∃ a, b = AssetMeta.Spec.xdr a ∧ AssetFits a) := by
  constructor
  · intro a e hf
    have ha := (assetFromObj_iff hh hb).mpr ⟨e, hf⟩
    have hid := idOf_eq (E := E) (objs := objs) (id := .asset a) hn (by omega) hf
    obtain ⟨v, hv⟩ := addObj_ok (os := objs ++ [.bytes E.network]) (.address (.contract (E.sha (assetMessage E.network a))))
      (by rw [List.length_append]; simp; omega)
    refine ⟨_, v, ?_, ⟨[.bytes E.network, _], by rw [List.append_assoc]; rfl⟩, (addObj_visit (by rw [List.length_append]; simp; omega) hv).1⟩
    unfold getAssetContractId
    simp only [ha, hid, bind, Except.bind, assetMessage_eq, hv]
  · intro r hr
    obtain ⟨a, h1, _⟩ := bind_ok.mp hr
    exact ⟨a, (assetFromObj_iff hh hb).mp h1⟩

/-- C74, creation: a contract created by a deployer with a salt, from a Wasm or from a reference to an executable, with or without
arguments, gets the id that `get_contract_id` gives for the deployer and the salt. -/
theorem C74_create {R : Rest} {d dep salt wasm owner tag ctor v : Nat} {args : Option Nat} {a : ScAddr} {s : List Nat}
    (hn : E.network.length = 32) (hr : Grows R) (hsz : ∀ o ∈ objs, Xdr.Spec.ObjSized o) (ha : visitObj objs dep = .ok (.address a))
    (hs : Holds objs salt s)
    (h : createWasm E R d objs dep wasm salt args = .ok (objs', v) ∨ createRef E R d objs dep owner tag salt ctor = .ok (objs', v))
    (hl : objs'.length ≤ 2 ^ 31) :
    s.length = 32 ∧ visitObj objs' v = .ok (.address (.contract (E.sha (idMessage E.network a s)))) ∧
    (∃ o o' c l, c.id = .address a s ∧ R.make o (E.sha (idMessage E.network a s)) c l = .ok o') ∧
    (objs.length + 2 ≤ 2 ^ 31 → ∃ objs₂ w, getContractId E objs dep salt = .ok (objs₂, w) ∧ visitObj objs₂ w = visitObj objs' v) := by
  have hf : AddrFits a := hsz _ (visitObj_mem ha)
  have key : s.length = 32 ∧ visitObj objs' v = .ok (.address (.contract (E.sha (idMessage E.network a s)))) ∧
      ∃ o o' c l, c.id = .address a s ∧ R.make o (E.sha (idMessage E.network a s)) c l = .ok o' := by
    rcases h with h | h
    · obtain ⟨_, _, h2⟩ := bind_ok.mp h
      obtain ⟨h3, h4, o, o', ss, l, h5⟩ := createFromInputs_ok hn hr hf ha hs h2 hl
      exact ⟨h3, h4, o, o', _, l, rfl, h5.1⟩
    · obtain ⟨_, _, h2⟩ := bind_ok.mp h
      obtain ⟨h3, h4, o, o', ss, l, h5⟩ := createFromInputs_ok hn hr hf ha hs h2 hl
      exact ⟨h3, h4, o, o', _, l, rfl, h5.1⟩
  refine ⟨key.1, key.2.1, key.2.2, fun hroom => ?_⟩
  obtain ⟨o, w, h1, _, h2⟩ := (C74_contract_id hn hroom hsz ha hs).1 key.1
  exact ⟨o, w, h1, h2.trans key.2.1.symm⟩

/-- C74, creation: the contract is made of the Wasm with the hash given, and its constructor gets the arguments given. -/
theorem C74_create_wasm {R : Rest} {d dep salt wasm v : Nat} {args : Option Nat} {a : ScAddr} {s b : List Nat}
    (hn : E.network.length = 32) (hr : Grows R) (hsz : ∀ o ∈ objs, Xdr.Spec.ObjSized o) (ha : visitObj objs dep = .ok (.address a))
    (hs : Holds objs salt s) (hw : Holds objs wasm b) (h : createWasm E R d objs dep wasm salt args = .ok (objs', v))
    (hl : objs'.length ≤ 2 ^ 31) :
    b.length = 32 ∧ ∃ o o' ss l, R.make o (E.sha (idMessage E.network a s)) ⟨.address a s, .wasm b, ss⟩ l = .ok o' ∧
      (args = none → l = []) ∧ (∀ x, args = some x → visitObj objs x = .ok (.vec l)) := by
  obtain ⟨b', h1, h2⟩ := bind_ok.mp h
  obtain ⟨h3, h4⟩ := bytes32_iff.mp h1
  cases h3.symm.trans hw
  obtain ⟨_, _, o, o', ss, l, h5, h6⟩ := createFromInputs_ok hn hr (hsz _ (visitObj_mem ha)) ha hs h2 hl
  exact ⟨h4, o, o', ss, l, h5, fun hx => by subst hx; cases h6; rfl, fun x hx => by subst hx; exact ctorArgs_some h6⟩

/-- C74, creation: the contract refers to the executable of the owner under the tag given, which are an address and a tag, and
its constructor gets the arguments given. -/
theorem C74_create_ref {R : Rest} {d dep salt owner tag ctor v : Nat} {a : ScAddr} {s : List Nat}
    (hn : E.network.length = 32) (hr : Grows R) (hsz : ∀ o ∈ objs, Xdr.Spec.ObjSized o) (ha : visitObj objs dep = .ok (.address a))
    (hs : Holds objs salt s) (h : createRef E R d objs dep owner tag salt ctor = .ok (objs', v)) (hl : objs'.length ≤ 2 ^ 31) :
    ∃ w t, visitObj objs owner = .ok (.address w) ∧ visitObj objs tag = .ok (.executableTag t) ∧
      ∃ o o' ss l, R.make o (E.sha (idMessage E.network a s)) ⟨.address a s, .ref w t, ss⟩ l = .ok o' ∧
        visitObj objs ctor = .ok (.vec l) := by
  obtain ⟨e, h1, h2⟩ := bind_ok.mp h
  obtain ⟨w, h3, h4⟩ := bind_ok.mp h1
  obtain ⟨t, h5, h6⟩ := bind_ok.mp h4
  cases h6
  obtain ⟨_, _, o, o', ss, l, h7, h8⟩ := createFromInputs_ok hn hr (hsz _ (visitObj_mem ha)) ha hs h2 hl
  refine ⟨w, t, visitAddress_iff.mp h3, ?_, o, o', ss, l, h7, ctorArgs_some h8⟩
  unfold visitTag at h5
  split at h5
  · cases h5
  · rename_i h7
    cases h5
    exact h7
  · cases h5

/-- C74, creation from an asset: the contract gets the id that `get_asset_contract_id` gives for the asset. -/
theorem C74_create_asset {R : Rest} {h v : Nat} {b : List Nat} (hn : E.network.length = 32) (hr : Grows R) (hb : AllBytes b)
    (hh : Holds objs h b) (hc : createAsset E R objs h = .ok (objs', v)) (hl : objs'.length ≤ 2 ^ 31) :
    ∃ a, b = AssetMeta.Spec.xdr a ∧ AssetFits a ∧
      visitObj objs' v = .ok (.address (.contract (E.sha (assetMessage E.network a)))) ∧
      (∃ o o' c l, c.id = .asset a ∧ R.make o (E.sha (assetMessage E.network a)) c l = .ok o') ∧
      (objs.length + 2 ≤ 2 ^ 31 → ∃ objs₂ w, getAssetContractId E objs h = .ok (objs₂, w) ∧ visitObj objs₂ w = visitObj objs' v) := by
  obtain ⟨a, h1, h2⟩ := bind_ok.mp hc
  obtain ⟨e, hf⟩ := (assetFromObj_iff hh hb).mp h1
  obtain ⟨_, h3, o, o', h4⟩ := createInternal_ok hn hr (c := ⟨.asset a, .asset, []⟩) hf h2 hl
  refine ⟨a, e, hf, h3, ⟨o, o', _, _, rfl, h4⟩, fun hroom => ?_⟩
  obtain ⟨o, w, h5, _, h6⟩ := (C74_asset_id hn hroom hb hh).1 a e hf
  exact ⟨o, w, h5, h6.trans h3.symm⟩

/-- C74, uniqueness: contracts with different origins (a deployer with a salt, or an asset), or on different networks, have different
ids, unless the two messages are a collision of SHA-256. -/
theorem C74_unique {D : Type} {sha : List Nat → D} {n n' : List Nat} {o o' : IdPre} (hn : n.length = 32) (hn' : n'.length = 32)
    (ho : IdFits o) (ho' : IdFits o') :
    (sha (message n o) = sha (message n' o') → n = n' ∧ o = o' ∨ Collide sha (message n o) (message n' o')) ∧
    (message n o = message n' o' → n = n' ∧ o = o') := by
  have key : message n o = message n' o' → n = n' ∧ o = o' := by
    intro e
    rw [← message_eq, ← message_eq] at e
    have := pre_inj (p := .contractId n o) (q := .contractId n' o') ⟨hn, ho⟩ ⟨hn', ho'⟩ e
    exact ⟨(HashPre.contractId.inj this).1, (HashPre.contractId.inj this).2⟩
  refine ⟨fun e => ?_, key⟩
  by_cases hm : message n o = message n' o'
  · exact .inl (key hm)
  · exact .inr ⟨hm, e⟩

/-- C74, kinds: an id made of a deployer and a salt is never given to an asset contract, nor an asset's to any other contract. -/
theorem C74_kinds {R : Rest} {dep : Option Nat} {c : CreateArgs} {l : List Nat} {r : List HostObj × Nat}
    (h : createInternal E R objs dep c l = .ok r) : (c.exec = .asset ↔ ∃ a, c.id = .asset a) := by
  have key : matchesExec c.id c.exec = true := by
    unfold createInternal at h
    cases hm : matchesExec c.id c.exec with
    | true => rfl
    | false =>
      rw [hm] at h
      cases dep with
      | none => cases h
      | some d =>
        obtain ⟨_, _, h2⟩ := bind_ok.mp h
        cases h2
  cases hi : c.id <;> cases he : c.exec <;> rw [hi, he] at key <;> simp_all [matchesExec]

/-! ### non-vacuity -/

/-- A table with the address of an account, a salt and the native asset. -/
def c74Objs : List HostObj := [.address (.account 7), .bytes (List.replicate 32 9), .bytes [0, 0, 0, 0]]

/-- A host whose network id is all ones and whose hash is the length of the message. -/
def c74Cfg : Cfg := ⟨List.replicate 32 1, List.length, fun _ => true⟩

def c74Rest : Rest := ⟨fun o _ => .ok o, fun o _ _ _ => .ok o⟩

/-- Whether a result is an address of the contract with this id. -/
def c74Is (r : Res (List HostObj × Nat)) (k : Nat) : Bool :=
  match r with
  | .ok (o, v) => match visitObj o v with | .ok x => x == .address (.contract k) | .error _ => false
  | .error _ => false

example : c74Is (getContractId c74Cfg c74Objs (valObject 1 .AddressObject) (valObject 3 .BytesObject)) 112 = true := by decide +kernel
example : c74Is (getAssetContractId c74Cfg c74Objs (valObject 5 .BytesObject)) 44 = true := by decide +kernel
example : c74Is (createWasm c74Cfg c74Rest 5 c74Objs (valObject 1 .AddressObject) (valObject 3 .BytesObject) (valObject 3 .BytesObject)
    none) 112 = true := by decide +kernel
example : c74Is (createRef c74Cfg c74Rest 5 (c74Objs ++ [.executableTag [65], .vec []]) (valObject 1 .AddressObject)
    (valObject 1 .AddressObject) (valObject 7 .ExecutableTagObject) (valObject 3 .BytesObject) (valObject 9 .VecObject)) 112 = true := by
  decide +kernel
example : c74Is (createAsset c74Cfg c74Rest c74Objs (valObject 5 .BytesObject)) 44 = true := by decide +kernel
example : Grows c74Rest := fun _ _ _ _ _ h => ⟨[], by cases h; simp⟩
example : ∀ o ∈ c74Objs, Xdr.Spec.ObjSized o := by
  intro o ho
  simp only [c74Objs, List.mem_cons, List.not_mem_nil, or_false] at ho
  rcases ho with rfl | rfl | rfl
  · show (7 : Nat) < 256 ^ 32; decide
  · refine ⟨by decide, fun x hx => ?_⟩; rw [(List.mem_replicate.mp hx).2]; decide
  · exact ⟨by decide, fun x hx => by simp at hx; omega⟩
example : message c74Cfg.network (.asset .native) ≠ message c74Cfg.network (.address (.account 7) (List.replicate 32 9)) := by decide
example : IdFits (.asset (.alpha4 [85, 83, 68, 0] 5)) := ⟨rfl, by decide⟩

end C74
section C75
variable {E E' : Cfg} {objs objs' later : List HostObj}

mutual
theorem noneUsed_inv {d : Nat} : ∀ {x : XInv} {objs objs' : List HostObj} {i : AInv},
    invFromXdr d objs x = .ok (objs', i) → Preimage.Spec.NoneUsed i
  | .mk f subs, objs, objs', i, h => by
    rw [invFromXdr] at h
    obtain ⟨⟨o1, s1⟩, h1, h⟩ := bind_ok.mp h
    obtain ⟨⟨o2, f1⟩, h2, h⟩ := bind_ok.mp h
    cases h
    exact .mk _ _ (noneUsed_invs h1)
theorem noneUsed_invs {d : Nat} : ∀ {xs : List XInv} {objs objs' : List HostObj} {is : List AInv},
    invsFromXdr d objs xs = .ok (objs', is) → ∀ i ∈ is, Preimage.Spec.NoneUsed i
  | [], objs, objs', is, h, i, hi => by cases h; cases hi
  | x :: xs, objs, objs', is, h, i, hi => by
    rw [invsFromXdr] at h
    obtain ⟨⟨o1, s1⟩, h1, h⟩ := bind_ok.mp h
    obtain ⟨⟨o2, f1⟩, h2, h⟩ := bind_ok.mp h
    cases h
    rcases List.mem_cons.mp hi with rfl | hi
    · exact noneUsed_inv h1
    · exact noneUsed_invs h2 i hi
end

/-- C75: no invocation of an entry has been used when the transaction begins. -/
theorem C75_none_used {d : Nat} {x : XInv} {i : AInv} (hx : invFromXdr d objs x = .ok (objs', i)) : Preimage.Spec.NoneUsed i :=
  noneUsed_inv hx

/-- C75: the payload of an authorization entry is the hash of a message made of the network, the nonce, the last ledger of the
signature, the tree of invocations exactly as the entry lists them (contract creations in the newer form) and, for credentials that
cover it, the address. It does not change as invocations are used up and as objects are added to the table. -/
theorem C75_payload {d d' addr ex : Nat} {wa : Bool} {nonce : Int} {a : ScAddr} {x : XInv} {i j : AInv} (hok : ObjsOk objs)
    (hf : InvFits x) (hc : AllCallable x) (hx : invFromXdr d objs x = .ok (objs', i)) (hl : objs'.length ≤ 2 ^ 31) (hj : Same i j)
    (hd : d ≤ d') (ha : visitObj (objs' ++ later) addr = .ok (.address a)) :
    ∀ k, signaturePayload E d' (objs' ++ later) ⟨addr, wa, some (nonce, ex), j⟩ = .ok k ↔
      k = E.sha (writePre (payloadPre E.network wa nonce ex a (plain x))) ∧ E.shallow (plain x) = true ∧
      (writePre (payloadPre E.network wa nonce ex a (plain x))).length ≤ 32 * 1024 * 1024 := by
  have h1 : invToXdr d' (objs' ++ later) j = .ok (plain x) := invToXdr_lift hd hj (invFromXdr_ok hok hf hc hx hl).2
  have h2 : signaturePayload E d' (objs' ++ later) ⟨addr, wa, some (nonce, ex), j⟩ =
      hashXdr E.sha E.shallow (payloadPre E.network wa nonce ex a (plain x)) := by
    unfold signaturePayload payloadPre
    cases wa
    · simp only [h1, bind, Except.bind, Bool.false_eq_true, if_false]
    · simp only [h1, bind, Except.bind, if_true, visitAddress_iff.mpr ha]
  have h3 : (payloadPre E.network wa nonce ex a (plain x)).ok E.shallow = E.shallow (plain x) := by
    unfold payloadPre; cases wa <;> rfl
  intro k
  rw [h2]
  unfold hashXdr
  rw [h3]
  constructor
  · intro hk
    split at hk
    · rename_i hc
      rw [Bool.and_eq_true] at hc
      cases hk
      exact ⟨rfl, hc.1, of_decide_eq_true hc.2⟩
    · cases hk
  · rintro ⟨e, hs, hlen⟩
    rw [hs, decide_eq_true (show _ ≤ Xdr.maxLen from hlen), e]; rfl

/-- C75, uniqueness: two messages to sign are equal only if they agree on the network, the nonce, the last ledger of the signature, the
kind of credentials, the whole tree and, for credentials that cover it, the address. So two entries with the same payload agree on
all of these, unless their messages are a collision of SHA-256. -/
theorem C75_unique {D : Type} {sha : List Nat → D} {n n' : List Nat} {wa wa' : Bool} {nonce nonce' : Int} {ex ex' : Nat}
    {a a' : ScAddr} {x x' : XInv} (hn : n.length = 32) (hn' : n'.length = 32) (hno : -2 ^ 63 ≤ nonce ∧ nonce < 2 ^ 63)
    (hno' : -2 ^ 63 ≤ nonce' ∧ nonce' < 2 ^ 63) (hex : ex < 2 ^ 32) (hex' : ex' < 2 ^ 32) (ha : AddrFits a) (ha' : AddrFits a')
    (hx : InvFits x) (hx' : InvFits x')
    (h : sha (writePre (payloadPre n wa nonce ex a (plain x))) = sha (writePre (payloadPre n' wa' nonce' ex' a' (plain x')))) :
    (n = n' ∧ nonce = nonce' ∧ ex = ex' ∧ wa = wa' ∧ plain x = plain x' ∧ (wa = true → a = a')) ∨
      Collide sha (writePre (payloadPre n wa nonce ex a (plain x))) (writePre (payloadPre n' wa' nonce' ex' a' (plain x'))) := by
  have hy := plain_fits hx
  have hy' := plain_fits hx'
  by_cases hm : writePre (payloadPre n wa nonce ex a (plain x)) = writePre (payloadPre n' wa' nonce' ex' a' (plain x'))
  · left
    have e := pre_inj (p := payloadPre n wa nonce ex a (plain x)) (q := payloadPre n' wa' nonce' ex' a' (plain x'))
      (by unfold payloadPre; cases wa; exacts [⟨hn, hno, hex, hy⟩, ⟨hn, hno, hex, ha, hy⟩])
      (by unfold payloadPre; cases wa'; exacts [⟨hn', hno', hex', hy'⟩, ⟨hn', hno', hex', ha', hy'⟩]) hm
    unfold payloadPre at e
    cases wa <;> cases wa' <;> simp only [Bool.false_eq_true, if_false, if_true] at e
    · injection e with e1 e2 e3 e4
      exact ⟨e1, e2, e3, rfl, e4, fun h => (nomatch h)⟩
    · cases e
    · cases e
    · injection e with e1 e2 e3 e4 e5
      exact ⟨e1, e2, e3, rfl, e5, fun _ => e4⟩
  · exact .inr ⟨hm, h⟩

/-- C75, separation: the message signed for an authorization is never the message of a contract id. -/
theorem C75_not_an_id {n n' : List Nat} {wa : Bool} {nonce : Int} {ex : Nat} {a : ScAddr} {x : XInv} {o : IdPre} :
    writePre (payloadPre n wa nonce ex a x) ≠ message n' o := by
  rw [← message_eq]
  intro h
  unfold payloadPre at h
  cases wa <;> simp only [Bool.false_eq_true, if_false, if_true, writePre, List.append_assoc] at h
  · exact absurd (be_prefix (by decide) (by decide) h).1 (by decide)
  · exact absurd (be_prefix (by decide) (by decide) h).1 (by decide)

/-- C75, meaning: two trees with the same message list the same functions, in the same places. The older form of contract creation
stands for the newer one without constructor arguments; nothing else is identified. -/
theorem C75_plain {f g : XFn} {s t : List XInv} (h : plain (.mk f s) = plain (.mk g t)) :
    plains s = plains t ∧ (f = g ∨ (∃ id e, f = .create id e ∧ g = .createV2 ⟨id, e, []⟩) ∨
      ∃ id e, g = .create id e ∧ f = .createV2 ⟨id, e, []⟩) := by
  rw [plain, plain] at h
  injection h with h1 h2
  refine ⟨h2, ?_⟩
  cases f <;> cases g <;> simp only [plainFn] at h1
  case create.create => injection h1 with h1; injection h1 with h1 h3; exact .inl (by rw [h1, h3])
  case create.createV2 => injection h1 with h1; exact .inr (.inl ⟨_, _, rfl, by rw [h1]⟩)
  case createV2.create => injection h1 with h1; exact .inr (.inr ⟨_, _, rfl, by rw [h1]⟩)
  all_goals first | exact .inl h1 | (cases h1; done)

/-! ### non-vacuity -/

/-- A tree: a call that deploys a contract. -/
def c75Tree : XInv := .mk (.call (.contract 5) [102] [.u32 1]) [.mk (.create (.address (.account 7) (List.replicate 32 9)) (.wasm
  (List.replicate 32 2))) []]

def c75Payload (wa : Bool) : Option Nat :=
  match invFromXdr 5 c74Objs c75Tree with
  | .ok (o, i) => match signaturePayload c74Cfg 5 o ⟨valObject 1 .AddressObject, wa, some (-3, 100), i⟩ with
    | .ok k => some k
    | .error _ => none
  | .error _ => none

example : c75Payload false = some 236 := by decide +kernel
example : c75Payload true = some 276 := by decide +kernel

example : InvFits c75Tree :=
  .mk ⟨by show (5 : Nat) < 256 ^ 32; decide, by decide, by decide, fun x hx => by
      rw [List.mem_singleton] at hx; subst hx; exact .mk (by show (1 : Nat) < 2 ^ 32; decide) trivial (fun y hy => by cases hy)⟩
    (by decide) fun x hx => by
      rw [List.mem_singleton] at hx; subst hx
      exact .mk ⟨⟨by show (7 : Nat) < 256 ^ 32; decide, rfl⟩, rfl⟩ (by decide) (fun y hy => by cases hy)

example : AllCallable c75Tree := .mk (.inr ⟨5, rfl⟩) fun x hx => by
  rw [List.mem_singleton] at hx; subst hx
  exact .mk trivial (fun y hy => by cases hy)

end C75
end Soroban.Props
