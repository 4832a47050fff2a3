import Verif.Spec.Preimage
import Verif.Lemmas.Xdr
import Verif.Lemmas.AssetMeta
/-! Lemmas for C74 and C75: what the host hashes determines its parts. -/
namespace Soroban.Preimage
open Soroban.Spec Soroban.Preimage.Spec
open Soroban.Xdr (be writeVar writeAddr write writeList be_length readNat_fwd readAddr_fwd readVar_fwd write_prefix)
open Soroban.Xdr.Spec (AddrFits Wire)
open Soroban.AssetMeta (Asset)

theorem be_prefix {n v w : Nat} {x y : List Nat} (hv : v < 256 ^ n) (hw : w < 256 ^ n) (h : be n v ++ x = be n w ++ y) :
    v = w ∧ x = y := by
  have h1 := readNat_fwd hv x
  rw [h, readNat_fwd hw y] at h1
  cases h1
  exact ⟨rfl, rfl⟩

theorem fixed_prefix {a b x y : List Nat} {n : Nat} (ha : a.length = n) (hb : b.length = n) (h : a ++ x = b ++ y) :
    a = b ∧ x = y := List.append_inj h (ha.trans hb.symm)

theorem addr_prefix {a b : ScAddr} {x y : List Nat} (ha : AddrFits a) (hb : AddrFits b) (h : writeAddr a ++ x = writeAddr b ++ y) :
    a = b ∧ x = y := by
  have h1 := readAddr_fwd ha x
  rw [h, readAddr_fwd hb y] at h1
  cases h1
  exact ⟨rfl, rfl⟩

theorem var_prefix {a b x y : List Nat} (ha : a.length < 2 ^ 32) (hb : b.length < 2 ^ 32) (h : writeVar a ++ x = writeVar b ++ y) :
    a = b ∧ x = y := by
  have h1 := readVar_fwd (max := 2 ^ 32) (Nat.le_of_lt ha) ha x
  rw [h, readVar_fwd (max := 2 ^ 32) (Nat.le_of_lt hb) hb y] at h1
  cases h1
  exact ⟨rfl, rfl⟩

theorem asset_prefix {a b : Asset} {x y : List Nat} (ha : AssetFits a) (hb : AssetFits b) (h : writeAsset a ++ x = writeAsset b ++ y) :
    a = b ∧ x = y := by
  cases a <;> cases b <;> simp only [writeAsset, List.append_assoc] at h
  case native.native => exact ⟨rfl, (be_prefix (by decide) (by decide) h).2⟩
  case alpha4.alpha4 =>
    obtain ⟨e1, h2⟩ := fixed_prefix ha.1 hb.1 (be_prefix (by decide) (by decide) h).2
    obtain ⟨e2, h3⟩ := be_prefix ha.2 hb.2 (be_prefix (by decide) (by decide) h2).2
    rw [e1, e2]; exact ⟨rfl, h3⟩
  case alpha12.alpha12 =>
    obtain ⟨e1, h2⟩ := fixed_prefix ha.1 hb.1 (be_prefix (by decide) (by decide) h).2
    obtain ⟨e2, h3⟩ := be_prefix ha.2 hb.2 (be_prefix (by decide) (by decide) h2).2
    rw [e1, e2]; exact ⟨rfl, h3⟩
  all_goals exact absurd (be_prefix (by decide) (by decide) h).1 (by decide)

theorem id_prefix {a b : IdPre} {x y : List Nat} (ha : IdFits a) (hb : IdFits b) (h : writeId a ++ x = writeId b ++ y) :
    a = b ∧ x = y := by
  cases a <;> cases b <;> simp only [writeId, List.append_assoc] at h
  case address.address =>
    obtain ⟨e1, h2⟩ := addr_prefix ha.1 hb.1 (be_prefix (by decide) (by decide) h).2
    obtain ⟨e2, h3⟩ := fixed_prefix ha.2 hb.2 h2
    rw [e1, e2]; exact ⟨rfl, h3⟩
  case asset.asset =>
    obtain ⟨e1, h2⟩ := asset_prefix ha hb (be_prefix (by decide) (by decide) h).2
    rw [e1]; exact ⟨rfl, h2⟩
  all_goals exact absurd (be_prefix (by decide) (by decide) h).1 (by decide)

theorem exec_prefix {a b : Exec} {x y : List Nat} (ha : ExecFits a) (hb : ExecFits b) (h : writeExec a ++ x = writeExec b ++ y) :
    a = b ∧ x = y := by
  cases a <;> cases b <;> simp only [writeExec, List.append_assoc] at h
  case wasm.wasm =>
    obtain ⟨e1, h2⟩ := fixed_prefix ha hb (be_prefix (by decide) (by decide) h).2
    rw [e1]; exact ⟨rfl, h2⟩
  case asset.asset => exact ⟨rfl, (be_prefix (by decide) (by decide) h).2⟩
  case ref.ref =>
    obtain ⟨e1, h2⟩ := addr_prefix ha.1 hb.1 (be_prefix (by decide) (by decide) h).2
    obtain ⟨e2, h3⟩ := var_prefix ha.2 hb.2 h2
    rw [e1, e2]; exact ⟨rfl, h3⟩
  all_goals exact absurd (be_prefix (by decide) (by decide) h).1 (by decide)

theorem list_prefix : ∀ {l m : List ScVal} {x y : List Nat}, l.length = m.length → (∀ s ∈ l, Wire s) → (∀ s ∈ m, Wire s) →
    writeList l ++ x = writeList m ++ y → l = m ∧ x = y := by
  intro l
  induction l with
  | nil =>
    intro m x y hl _ _ h
    match m, hl with
    | [], _ => exact ⟨rfl, h⟩
  | cons s l ih =>
    intro m x y hl ha hb h
    match m, hl with
    | t :: m, hl =>
      simp only [writeList, List.append_assoc] at h
      obtain ⟨e1, h2⟩ := write_prefix (ha s List.mem_cons_self) (hb t List.mem_cons_self) h
      obtain ⟨e2, h3⟩ := ih (Nat.succ.inj hl) (fun z hz => ha z (List.mem_cons_of_mem _ hz))
        (fun z hz => hb z (List.mem_cons_of_mem _ hz)) h2
      rw [e1, e2]; exact ⟨rfl, h3⟩

theorem vals_prefix {l m : List ScVal} {x y : List Nat} (ha : ValsFit l) (hb : ValsFit m) (h : writeVals l ++ x = writeVals m ++ y) :
    l = m ∧ x = y := by
  simp only [writeVals, List.append_assoc] at h
  obtain ⟨e1, h2⟩ := be_prefix (n := 4) ha.1 hb.1 h
  exact list_prefix e1 ha.2 hb.2 h2

theorem fn_prefix {f g : XFn} {x y : List Nat} (ha : FnFits f) (hb : FnFits g) (h : writeFn f ++ x = writeFn g ++ y) :
    f = g ∧ x = y := by
  cases f <;> cases g <;> simp only [writeFn, List.append_assoc] at h
  case call.call =>
    obtain ⟨e1, h2⟩ := addr_prefix ha.1 hb.1 (be_prefix (by decide) (by decide) h).2
    obtain ⟨e2, h3⟩ := var_prefix (Nat.lt_of_le_of_lt ha.2.1 (by decide)) (Nat.lt_of_le_of_lt hb.2.1 (by decide)) h2
    obtain ⟨e3, h4⟩ := vals_prefix ha.2.2 hb.2.2 h3
    rw [e1, e2, e3]; exact ⟨rfl, h4⟩
  case create.create =>
    obtain ⟨e1, h2⟩ := id_prefix ha.1 hb.1 (be_prefix (by decide) (by decide) h).2
    obtain ⟨e2, h3⟩ := exec_prefix ha.2 hb.2 h2
    rw [e1, e2]; exact ⟨rfl, h3⟩
  case createV2.createV2 a b =>
    obtain ⟨e1, h2⟩ := id_prefix ha.1 hb.1 (be_prefix (by decide) (by decide) h).2
    obtain ⟨e2, h3⟩ := exec_prefix ha.2.1 hb.2.1 h2
    obtain ⟨e3, h4⟩ := vals_prefix ha.2.2 hb.2.2 h3
    cases a; cases b; cases e1; cases e2; cases e3
    exact ⟨rfl, h4⟩
  all_goals exact absurd (be_prefix (by decide) (by decide) h).1 (by decide)

theorem invs_prefix {l : List XInv} (ih : ∀ i ∈ l, ∀ j, InvFits j → ∀ x y, writeInv i ++ x = writeInv j ++ y → i = j ∧ x = y) :
    ∀ {m : List XInv} {x y : List Nat}, l.length = m.length → (∀ j ∈ m, InvFits j) → writeInvs l ++ x = writeInvs m ++ y →
    l = m ∧ x = y := by
  induction l with
  | nil =>
    intro m x y hl _ h
    match m, hl with
    | [], _ => exact ⟨rfl, h⟩
  | cons s l ihl =>
    intro m x y hl hb h
    match m, hl with
    | t :: m, hl =>
      simp only [writeInvs, List.append_assoc] at h
      obtain ⟨e1, h2⟩ := ih s List.mem_cons_self t (hb t List.mem_cons_self) _ _ h
      obtain ⟨e2, h3⟩ := ihl (fun z hz => ih z (List.mem_cons_of_mem _ hz)) (Nat.succ.inj hl)
        (fun z hz => hb z (List.mem_cons_of_mem _ hz)) h2
      rw [e1, e2]; exact ⟨rfl, h3⟩

theorem inv_prefix {i : XInv} (ha : InvFits i) : ∀ {j : XInv}, InvFits j → ∀ {x y : List Nat}, writeInv i ++ x = writeInv j ++ y →
    i = j ∧ x = y := by
  induction ha with
  | mk hf hl _ ih =>
    intro j hj x y h
    cases hj with
    | mk hf' hl' hs' =>
      simp only [writeInv, List.append_assoc] at h
      obtain ⟨e1, h2⟩ := fn_prefix hf hf' h
      obtain ⟨e2, h3⟩ := be_prefix (n := 4) hl hl' h2
      obtain ⟨e3, h4⟩ := invs_prefix (fun i hi j hj x y hxy => ih i hi hj hxy) e2 hs' h3
      rw [e1, e3]; exact ⟨rfl, h4⟩

theorem asU64_lt (i : Int) : asU64 i < 256 ^ 8 := by
  unfold asU64
  have : (2 : Int) ^ 64 = 18446744073709551616 := by decide
  omega

theorem asU64_inj {i j : Int} (hi : -2 ^ 63 ≤ i ∧ i < 2 ^ 63) (hj : -2 ^ 63 ≤ j ∧ j < 2 ^ 63) (h : asU64 i = asU64 j) : i = j := by
  unfold asU64 at h
  omega

/-- The message determines the preimage. -/
theorem pre_inj {p q : HashPre} (hp : PreFits p) (hq : PreFits q) (h : writePre p = writePre q) : p = q := by
  have h : writePre p ++ [] = writePre q ++ [] := by rw [h]
  cases p <;> cases q <;> simp only [writePre, List.append_assoc] at h
  case contractId.contractId =>
    obtain ⟨e1, h2⟩ := fixed_prefix hp.1 hq.1 (be_prefix (by decide) (by decide) h).2
    rw [e1, (id_prefix hp.2 hq.2 h2).1]
  case auth.auth =>
    obtain ⟨e1, h2⟩ := fixed_prefix hp.1 hq.1 (be_prefix (by decide) (by decide) h).2
    obtain ⟨e2, h3⟩ := be_prefix (asU64_lt _) (asU64_lt _) h2
    obtain ⟨e3, h4⟩ := be_prefix (n := 4) hp.2.2.1 hq.2.2.1 h3
    rw [e1, asU64_inj hp.2.1 hq.2.1 e2, e3, (inv_prefix hp.2.2.2 hq.2.2.2 h4).1]
  case authAddr.authAddr =>
    obtain ⟨e1, h2⟩ := fixed_prefix hp.1 hq.1 (be_prefix (by decide) (by decide) h).2
    obtain ⟨e2, h3⟩ := be_prefix (asU64_lt _) (asU64_lt _) h2
    obtain ⟨e3, h4⟩ := be_prefix (n := 4) hp.2.2.1 hq.2.2.1 h3
    obtain ⟨e4, h5⟩ := addr_prefix hp.2.2.2.1 hq.2.2.2.1 h4
    rw [e1, asU64_inj hp.2.1 hq.2.1 e2, e3, e4, (inv_prefix hp.2.2.2.2 hq.2.2.2.2 h5).1]
  all_goals exact absurd (be_prefix (by decide) (by decide) h).1 (by decide)

/-! ### Contract ids -/

open Soroban.Xdr.Spec (Holds)

theorem writeAddr_length (a : ScAddr) : (writeAddr a).length ≤ 44 := by
  cases a <;> simp [writeAddr, be_length]

theorem writeId_length {id : IdPre} (h : IdFits id) : (writeId id).length ≤ 84 := by
  cases id with
  | address a s =>
    have := writeAddr_length a
    have := h.2
    simp only [writeId, List.length_append, be_length]; omega
  | asset a =>
    cases a with
    | native => simp [writeId, writeAsset, be_length]
    | alpha4 c i => have := h.1; simp only [writeId, writeAsset, List.length_append, be_length]; omega
    | alpha12 c i => have := h.1; simp only [writeId, writeAsset, List.length_append, be_length]; omega

theorem bytes32_iff {objs : List HostObj} {h : Nat} {b : List Nat} :
    bytes32 objs h = .ok b ↔ Holds objs h b ∧ b.length = 32 := by
  unfold bytes32
  rw [bind_ok]
  unfold visitBytes Holds Signatures.fixedLength
  constructor
  · rintro ⟨a, h1, h2⟩
    cases ho : visitObj objs h with
    | error e => rw [ho] at h1; cases h1
    | ok o =>
      rw [ho] at h1
      cases o <;> cases h1
      by_cases hl : a.length = 32
      · rw [if_pos hl] at h2; cases h2; exact ⟨rfl, hl⟩
      · rw [if_neg hl] at h2; cases h2
  · rintro ⟨h1, h2⟩
    exact ⟨b, by rw [h1], by rw [if_pos h2]⟩

theorem visitAddress_iff {objs : List HostObj} {h : Nat} {a : ScAddr} :
    Strkey.visitAddress objs h = .ok a ↔ visitObj objs h = .ok (.address a) := by
  unfold Strkey.visitAddress
  constructor
  · intro h1
    cases ho : visitObj objs h with
    | error e => rw [ho] at h1; cases h1
    | ok o => rw [ho] at h1; cases o <;> cases h1; rfl
  · intro h1; rw [h1]

/-- The id in one formula. -/
theorem idOf_eq {E : Cfg} {objs : List HostObj} {id : IdPre} (hn : E.network.length = 32) (hl : objs.length < 2 ^ 31) (hf : IdFits id) :
    idOf E objs id = .ok (objs ++ [.bytes E.network], E.sha (writePre (.contractId E.network id))) := by
  obtain ⟨v, hv⟩ := addObj_ok (os := objs) (.bytes E.network) hl
  have hb : bytes32 (objs ++ [.bytes E.network]) v = .ok E.network := bytes32_iff.mpr ⟨(addObj_visit hl hv).1, hn⟩
  have hlen : (writePre (.contractId E.network id)).length ≤ Xdr.maxLen := by
    have := writeId_length hf
    simp only [writePre, List.length_append, be_length, hn, Xdr.maxLen]; omega
  unfold idOf fullPreimage hashXdr
  simp only [hv, hb, bind, Except.bind, HashPre.ok, Bool.true_and, decide_eq_true hlen, if_true]

theorem idMessage_eq (n : List Nat) (a : ScAddr) (s : List Nat) : writePre (.contractId n (.address a s)) = idMessage n a s := by
  simp only [writePre, writeId, idMessage, List.append_assoc]
  rfl

theorem assetMessage_eq (n : List Nat) (a : Asset) : writePre (.contractId n (.asset a)) = assetMessage n a := by
  cases a with
  | native => simp only [writePre, writeId, writeAsset, assetMessage, AssetMeta.Spec.xdr, List.append_assoc]; rfl
  | alpha4 c i =>
    simp only [writePre, writeId, writeAsset, assetMessage, AssetMeta.Spec.xdr, List.append_assoc, Strkey.be_eq_beBytes]; rfl
  | alpha12 c i =>
    simp only [writePre, writeId, writeAsset, assetMessage, AssetMeta.Spec.xdr, List.append_assoc, Strkey.be_eq_beBytes]; rfl

theorem assetFits_iff {a : Asset} : AssetFits a ↔ AssetMeta.Sized a := by cases a <;> exact Iff.rfl

theorem assetFromObj_iff {objs : List HostObj} {h : Nat} {b : List Nat} {a : Asset} (hh : Holds objs h b) (hb : Xdr.Spec.AllBytes b) :
    assetFromObj objs h = .ok a ↔ b = AssetMeta.Spec.xdr a ∧ AssetFits a := by
  have hv : visitBytes objs h = .ok b := by unfold visitBytes; rw [hh]
  unfold assetFromObj
  rw [hv]
  simp only [bind, Except.bind]
  rw [assetFits_iff]
  constructor
  · intro h1
    cases hx : AssetMeta.assetFromXdr b with
    | none => rw [hx] at h1; cases h1
    | some c =>
      rw [hx] at h1; cases h1
      exact AssetMeta.assetFromXdr_sound hb hx
  · rintro ⟨e, hs⟩
    rw [e, AssetMeta.assetFromXdr_xdr hs]

theorem message_eq (n : List Nat) (id : IdPre) : writePre (.contractId n id) = message n id := by
  cases id with
  | address a s => exact idMessage_eq n a s
  | asset a => exact assetMessage_eq n a

/-- A successful creation uses the hash of the message as the id and returns its address. -/
theorem createInternal_ok {E : Cfg} {R : Rest} {objs objs' : List HostObj} {dep : Option Nat} {c : CreateArgs} {l : List Nat} {v : Nat}
    (hn : E.network.length = 32) (hr : Grows R) (hf : IdFits c.id) (h : createInternal E R objs dep c l = .ok (objs', v))
    (hl : objs'.length ≤ 2 ^ 31) :
    matchesExec c.id c.exec = true ∧ visitObj objs' v = .ok (.address (.contract (E.sha (message E.network c.id)))) ∧
    ∃ o o', R.make o (E.sha (message E.network c.id)) c l = .ok o' := by
  unfold createInternal at h
  have key : ∀ o : List HostObj, (if !matchesExec c.id c.exec then (.error (.host .value .invalidInput) : Res (List HostObj × Nat))
      else do
        let (o, k) ← idOf E o c.id
        let o ← R.make o k c l
        addObj o (.address (.contract k))) = .ok (objs', v) → matchesExec c.id c.exec = true ∧
      visitObj objs' v = .ok (.address (.contract (E.sha (message E.network c.id)))) ∧
      ∃ o o', R.make o (E.sha (message E.network c.id)) c l = .ok o' := by
    intro o h
    cases hm : matchesExec c.id c.exec with
    | false => rw [hm] at h; cases h
    | true =>
      rw [hm] at h
      simp only [Bool.not_true, Bool.false_eq_true, if_false] at h
      obtain ⟨⟨o1, k⟩, h1, h2⟩ := bind_ok.mp h
      obtain ⟨o2, h3, h4⟩ := bind_ok.mp h2
      have e := addObj_eq h4
      obtain ⟨new, e2⟩ := hr _ _ _ _ _ h3
      have hlen : o2.length < 2 ^ 31 := by rw [e, List.length_append] at hl; simp at hl; omega
      have hlen1 : o1.length < 2 ^ 31 := by rw [e2, List.length_append] at hlen; exact Nat.lt_of_le_of_lt (Nat.le_add_right _ _) hlen
      have hlo : o.length < 2 ^ 31 := by
        unfold idOf fullPreimage at h1
        obtain ⟨⟨o3, p⟩, h5, h6⟩ := bind_ok.mp h1
        obtain ⟨⟨o4, hh⟩, h7, h8⟩ := bind_ok.mp h5
        obtain ⟨b, h9, h10⟩ := bind_ok.mp h8
        obtain ⟨k', h11, h12⟩ := bind_ok.mp h6
        cases h12; cases h10
        rw [addObj_eq h7, List.length_append] at hlen1
        omega
      rw [idOf_eq hn hlo hf, message_eq] at h1
      cases h1
      exact ⟨rfl, (addObj_visit hlen h4).1, _, _, h3⟩
  cases dep with
  | none => exact key objs h
  | some d =>
    simp only at h
    obtain ⟨o, h1, h2⟩ := bind_ok.mp h
    exact key o h2

theorem createFromInputs_ok {E : Cfg} {R : Rest} {objs objs' : List HostObj} {d dep salt v : Nat} {e : Exec} {args : Option Nat}
    {a : ScAddr} {s : List Nat} (hn : E.network.length = 32) (hr : Grows R) (hfit : AddrFits a)
    (ha : visitObj objs dep = .ok (.address a)) (hs : Holds objs salt s)
    (h : createFromInputs E R d objs dep e salt args = .ok (objs', v)) (hl : objs'.length ≤ 2 ^ 31) :
    s.length = 32 ∧ visitObj objs' v = .ok (.address (.contract (E.sha (idMessage E.network a s)))) ∧
    ∃ o o' ss l, R.make o (E.sha (idMessage E.network a s)) ⟨.address a s, e, ss⟩ l = .ok o' ∧ ctorArgs d objs args = .ok (ss, l) := by
  unfold createFromInputs at h
  obtain ⟨p, h1, h2⟩ := bind_ok.mp h
  unfold addressPreimage at h1
  obtain ⟨a', h3, h4⟩ := bind_ok.mp h1
  obtain ⟨s', h5, h6⟩ := bind_ok.mp h4
  cases (visitAddress_iff.mp h3).symm.trans ha
  obtain ⟨h7, h8⟩ := bytes32_iff.mp h5
  cases h7.symm.trans hs
  cases h6
  obtain ⟨⟨ss, l⟩, hc, h9⟩ := bind_ok.mp h2
  obtain ⟨_, h10, o, o', h11⟩ := createInternal_ok hn hr (c := ⟨.address a s, e, ss⟩) ⟨hfit, h8⟩ h9 hl
  exact ⟨h8, h10, o, o', ss, l, h11, hc⟩

theorem ctorArgs_some {d v : Nat} {objs : List HostObj} {ss : List ScVal} {l : List Nat}
    (h : ctorArgs d objs (some v) = .ok (ss, l)) : visitObj objs v = .ok (.vec l) := by
  obtain ⟨l', h1, h2⟩ := bind_ok.mp h
  obtain ⟨ss', _, h3⟩ := bind_ok.mp h2
  cases h3
  unfold visitVec at h1
  split at h1
  · cases h1
  · cases h1; assumption
  · cases h1

/-! ### Payloads -/

theorem symbolOf_prefix {objs objs' : List HostObj} {b : List Nat} {v : Nat} (h : symbolOf objs b = .ok (objs', v)) :
    ∃ e, objs' = objs ++ e := by
  unfold symbolOf at h
  cases hx : symbolTryFromBytes b with
  | some w => rw [hx] at h; cases h; exact ⟨[], by simp⟩
  | none =>
    rw [hx] at h
    obtain ⟨o, _, h2⟩ := bind_ok.mp h
    exact ⟨[o], addObj_eq h2⟩

theorem symbolOf_ok {objs objs' : List HostObj} {b : List Nat} {v : Nat} (ho : ObjsOk objs) (h : symbolOf objs b = .ok (objs', v))
    (hl : objs'.length ≤ 2 ^ 31) : ObjsOk objs' ∧ symbolToXdr objs' v = .ok b := by
  unfold symbolOf at h
  cases hx : symbolTryFromBytes b with
  | some w =>
    rw [hx] at h; cases h
    obtain ⟨h1, h2, _⟩ := Props.C02_symbol_round_trip b v hx
    have ht : Val.tag v = .SymbolSmall := hasTag_tag h2 (by decide) (by decide) (by decide)
    refine ⟨ho, ?_⟩
    unfold symbolToXdr
    rw [if_neg (by rw [ht]; decide), if_pos ht, h1]
  | none =>
    rw [hx] at h
    obtain ⟨o, h1, h2⟩ := bind_ok.mp h
    have e : o = .symbol b := by
      unfold symbolObject at h1
      split at h1
      · cases h1
      · split at h1 <;> cases h1
        rfl
    subst e
    have hlt : objs.length < 2 ^ 31 := by rw [addObj_eq h2, List.length_append] at hl; simp at hl; omega
    obtain ⟨h3, _, h5⟩ := addObj_visit hlt h2
    refine ⟨by rw [addObj_eq h2]; exact ObjsOk_snoc ho trivial (fun v hv => by cases hv), ?_⟩
    unfold symbolToXdr visitSymbol
    rw [if_pos (show Val.tag v = .SymbolObject from h5), h3]

theorem fromVals_lift {f g : Nat → Res ScVal} (hfg : ∀ v s, f v = .ok s → g v = .ok s) : ∀ {l : List Nat} {r : List ScVal},
    fromVals f l = .ok r → fromVals g l = .ok r := by
  intro l
  induction l with
  | nil => intro r h; exact h
  | cons v l ih =>
    intro r h
    rw [fromVals] at h ⊢
    obtain ⟨s, h1, h2⟩ := bind_ok.mp h
    obtain ⟨ss, h3, h4⟩ := bind_ok.mp h2
    exact bind_ok.mpr ⟨s, hfg _ _ h1, bind_ok.mpr ⟨ss, ih h3, h4⟩⟩

theorem symbolToXdr_append {objs e : List HostObj} {v : Nat} {b : List Nat} (h : symbolToXdr objs v = .ok b) :
    symbolToXdr (objs ++ e) v = .ok b := by
  unfold symbolToXdr at h ⊢
  by_cases h1 : Val.tag v = .SymbolObject
  · rw [if_pos h1] at h ⊢
    unfold visitSymbol at h ⊢
    cases ho : visitObj objs v with
    | error x => rw [ho] at h; cases h
    | ok o => rw [ho] at h; rw [visitObj_append ho]; exact h
  · rw [if_neg h1] at h ⊢; exact h

theorem fnToXdr_lift {d d' : Nat} {objs e : List HostObj} {f : AFn} {x : XFn} (hd : d ≤ d') (h : fnToXdr d objs f = .ok x) :
    fnToXdr d' (objs ++ e) f = .ok x := by
  cases f with
  | create a => exact h
  | call c n as =>
    rw [fnToXdr] at h ⊢
    obtain ⟨b, h1, h2⟩ := bind_ok.mp h
    obtain ⟨a, h3, h4⟩ := bind_ok.mp h2
    obtain ⟨ss, h5, h6⟩ := bind_ok.mp h4
    refine bind_ok.mpr ⟨b, symbolToXdr_append h1, bind_ok.mpr ⟨a, ?_, bind_ok.mpr ⟨ss, ?_, h6⟩⟩⟩
    · exact visitAddress_iff.mpr (visitObj_append (visitAddress_iff.mp h3))
    · exact fromVals_lift (fun v s hv => fromVal_append (fromVal_mono hd hv)) h5

mutual
theorem invToXdr_lift {d d' : Nat} {objs e : List HostObj} (hd : d ≤ d') : ∀ {i j : AInv} {x : XInv}, Same i j →
    invToXdr d objs i = .ok x → invToXdr d' (objs ++ e) j = .ok x
  | .mk f subs u, j, x, hs, h => by
    cases hs with
    | mk hs =>
      rw [invToXdr] at h ⊢
      obtain ⟨f', h1, h2⟩ := bind_ok.mp h
      obtain ⟨ss, h3, h4⟩ := bind_ok.mp h2
      exact bind_ok.mpr ⟨f', fnToXdr_lift hd h1, bind_ok.mpr ⟨ss, invsToXdr_lift hd hs h3, h4⟩⟩
theorem invsToXdr_lift {d d' : Nat} {objs e : List HostObj} (hd : d ≤ d') : ∀ {is js : List AInv} {xs : List XInv}, Sames is js →
    invsToXdr d objs is = .ok xs → invsToXdr d' (objs ++ e) js = .ok xs
  | [], js, xs, hs, h => by cases hs; exact h
  | i :: is, js, xs, hs, h => by
    cases hs with
    | cons h1 hs =>
      rw [invsToXdr] at h ⊢
      obtain ⟨x, h2, h3⟩ := bind_ok.mp h
      obtain ⟨ss, h4, h5⟩ := bind_ok.mp h3
      exact bind_ok.mpr ⟨x, invToXdr_lift hd h1 h2, bind_ok.mpr ⟨ss, invsToXdr_lift hd hs h4, h5⟩⟩
end

mutual
theorem Same.refl : ∀ i : AInv, Same i i
  | .mk _ subs _ => .mk (Sames.refl subs)
theorem Sames.refl : ∀ is : List AInv, Sames is is
  | [] => .nil
  | i :: is => .cons (Same.refl i) (Sames.refl is)
end

theorem fnFromXdr_prefix {d : Nat} {objs objs' : List HostObj} {x : XFn} {f : AFn} (h : fnFromXdr d objs x = .ok (objs', f)) :
    ∃ e, objs' = objs ++ e := by
  cases x with
  | create id e => cases h; exact ⟨[], by simp⟩
  | createV2 a => cases h; exact ⟨[], by simp⟩
  | call c n as =>
    rw [fnFromXdr] at h
    obtain ⟨⟨o1, v1⟩, h1, h2⟩ := bind_ok.mp h
    obtain ⟨⟨o2, v2⟩, h3, h4⟩ := bind_ok.mp h2
    obtain ⟨⟨o3, v3⟩, h5, h6⟩ := bind_ok.mp h4
    cases h6
    obtain ⟨e2, e2'⟩ := symbolOf_prefix h3
    obtain ⟨e3, e3'⟩ := toVals_prefix toVal_prefix h5
    exact ⟨[.address c] ++ (e2 ++ e3), by rw [e3', e2', addObj_eq h1]; simp⟩

theorem fnFromXdr_ok {d : Nat} {objs objs' : List HostObj} {x : XFn} {f : AFn} (ho : ObjsOk objs) (hf : FnFits x) (hc : Callable x)
    (h : fnFromXdr d objs x = .ok (objs', f)) (hl : objs'.length ≤ 2 ^ 31) : ObjsOk objs' ∧ fnToXdr d objs' f = .ok (plainFn x) := by
  cases x with
  | create id e => cases h; exact ⟨ho, rfl⟩
  | createV2 a => cases h; exact ⟨ho, rfl⟩
  | call c n as =>
    rw [fnFromXdr] at h
    obtain ⟨⟨o1, v1⟩, h1, h2⟩ := bind_ok.mp h
    obtain ⟨⟨o2, v2⟩, h3, h4⟩ := bind_ok.mp h2
    obtain ⟨⟨o3, v3⟩, h5, h6⟩ := bind_ok.mp h4
    cases h6
    obtain ⟨e2, e2'⟩ := symbolOf_prefix h3
    obtain ⟨e3, e3'⟩ := toVals_prefix toVal_prefix h5
    dsimp only at *
    have l2 : o2.length ≤ 2 ^ 31 := by rw [e3', List.length_append] at hl; omega
    have l1 : o1.length ≤ 2 ^ 31 := by rw [e2', List.length_append] at l2; omega
    have l0 : objs.length < 2 ^ 31 := by rw [addObj_eq h1, List.length_append] at l1; simp at l1; omega
    have k1 : ObjsOk o1 := by
      rw [addObj_eq h1]
      exact ObjsOk_snoc ho hc (fun v hv => by cases hv)
    obtain ⟨k2, k2'⟩ := symbolOf_ok k1 h3 l2
    obtain ⟨k3, k3'⟩ := toVals_conv (d := d) (fun a b c e => toVal_conv a b c e) k2 (fun y hy => Xdr.wire_xdrOk (hf.2.2.2 y hy)) hl h5
    refine ⟨k3, ?_⟩
    rw [fnToXdr]
    refine bind_ok.mpr ⟨n, by rw [e3']; exact symbolToXdr_append k2', bind_ok.mpr ⟨c, ?_, bind_ok.mpr ⟨as, fromVals_of k3', rfl⟩⟩⟩
    refine visitAddress_iff.mpr ?_
    rw [e3', e2', List.append_assoc]
    exact visitObj_append (addObj_visit l0 h1).1

mutual
theorem invFromXdr_prefix {d : Nat} : ∀ {x : XInv} {objs objs' : List HostObj} {i : AInv},
    invFromXdr d objs x = .ok (objs', i) → ∃ e, objs' = objs ++ e
  | .mk f subs, objs, objs', i, h => by
    rw [invFromXdr] at h
    obtain ⟨⟨o1, v1⟩, h1, h2⟩ := bind_ok.mp h
    obtain ⟨⟨o2, v2⟩, h3, h4⟩ := bind_ok.mp h2
    cases h4
    obtain ⟨e1, rfl⟩ := invsFromXdr_prefix h1
    obtain ⟨e2, rfl⟩ := fnFromXdr_prefix h3
    exact ⟨e1 ++ e2, by simp⟩
theorem invsFromXdr_prefix {d : Nat} : ∀ {xs : List XInv} {objs objs' : List HostObj} {is : List AInv},
    invsFromXdr d objs xs = .ok (objs', is) → ∃ e, objs' = objs ++ e
  | [], objs, objs', i, h => by cases h; exact ⟨[], by simp⟩
  | x :: xs, objs, objs', i, h => by
    rw [invsFromXdr] at h
    obtain ⟨⟨o1, v1⟩, h1, h2⟩ := bind_ok.mp h
    obtain ⟨⟨o2, v2⟩, h3, h4⟩ := bind_ok.mp h2
    cases h4
    obtain ⟨e1, rfl⟩ := invFromXdr_prefix h1
    obtain ⟨e2, rfl⟩ := invsFromXdr_prefix h3
    exact ⟨e1 ++ e2, by simp⟩
end

mutual
theorem invFromXdr_ok {d : Nat} : ∀ {x : XInv} {objs objs' : List HostObj} {i : AInv}, ObjsOk objs → InvFits x → AllCallable x →
    invFromXdr d objs x = .ok (objs', i) → objs'.length ≤ 2 ^ 31 → ObjsOk objs' ∧ invToXdr d objs' i = .ok (plain x)
  | .mk f subs, objs, objs', i, ho, hf, hc, h, hl => by
    cases hf with
    | mk f1 _ f3 => cases hc with
      | mk c1 c2 =>
        rw [invFromXdr] at h
        obtain ⟨⟨o1, v1⟩, h1, h2⟩ := bind_ok.mp h
        obtain ⟨⟨o2, v2⟩, h3, h4⟩ := bind_ok.mp h2
        cases h4
        obtain ⟨e2, e2'⟩ := fnFromXdr_prefix h3
        dsimp only at *
        have l1 : o1.length ≤ 2 ^ 31 := by rw [e2', List.length_append] at hl; omega
        obtain ⟨k1, k2⟩ := invsFromXdr_ok ho f3 c2 h1 l1
        obtain ⟨k3, k4⟩ := fnFromXdr_ok k1 f1 c1 h3 hl
        refine ⟨k3, ?_⟩
        rw [invToXdr]
        refine bind_ok.mpr ⟨_, k4, bind_ok.mpr ⟨plains subs, ?_, rfl⟩⟩
        rw [e2']
        exact invsToXdr_lift (Nat.le_refl d) (Sames.refl v1) k2
theorem invsFromXdr_ok {d : Nat} : ∀ {xs : List XInv} {objs objs' : List HostObj} {is : List AInv}, ObjsOk objs →
    (∀ x ∈ xs, InvFits x) → (∀ x ∈ xs, AllCallable x) → invsFromXdr d objs xs = .ok (objs', is) → objs'.length ≤ 2 ^ 31 →
    ObjsOk objs' ∧ invsToXdr d objs' is = .ok (plains xs)
  | [], objs, objs', i, ho, _, _, h, hl => by cases h; exact ⟨ho, rfl⟩
  | x :: xs, objs, objs', i, ho, hf, hc, h, hl => by
    rw [invsFromXdr] at h
    obtain ⟨⟨o1, v1⟩, h1, h2⟩ := bind_ok.mp h
    obtain ⟨⟨o2, v2⟩, h3, h4⟩ := bind_ok.mp h2
    cases h4
    obtain ⟨e2, e2'⟩ := invsFromXdr_prefix h3
    dsimp only at *
    have l1 : o1.length ≤ 2 ^ 31 := by rw [e2', List.length_append] at hl; omega
    obtain ⟨k1, k2⟩ := invFromXdr_ok ho (hf x List.mem_cons_self) (hc x List.mem_cons_self) h1 l1
    obtain ⟨k3, k4⟩ := invsFromXdr_ok k1 (fun y hy => hf y (List.mem_cons_of_mem _ hy)) (fun y hy => hc y (List.mem_cons_of_mem _ hy)) h3 hl
    refine ⟨k3, ?_⟩
    rw [invsToXdr]
    refine bind_ok.mpr ⟨plain x, ?_, bind_ok.mpr ⟨plains xs, k4, rfl⟩⟩
    rw [e2']
    exact invToXdr_lift (Nat.le_refl d) (Same.refl v1) k2
end

theorem plainFn_fits {f : XFn} (h : FnFits f) : FnFits (plainFn f) := by
  cases f with
  | call c n as => exact h
  | create id e => exact ⟨h.1, h.2, Nat.zero_lt_of_lt (by decide : 0 < 2 ^ 32), fun x hx => by cases hx⟩
  | createV2 a => exact h

theorem plains_length : ∀ l : List XInv, (plains l).length = l.length
  | [] => rfl
  | _ :: l => by rw [plains, List.length_cons, List.length_cons, plains_length l]

theorem mem_plains : ∀ {l : List XInv} {y : XInv}, y ∈ plains l → ∃ x ∈ l, y = plain x
  | [], y, h => by cases h
  | x :: l, y, h => by
    rw [plains, List.mem_cons] at h
    rcases h with h | h
    · exact ⟨x, List.mem_cons_self, h⟩
    · obtain ⟨z, hz, e⟩ := mem_plains h
      exact ⟨z, List.mem_cons_of_mem _ hz, e⟩

theorem plain_fits {x : XInv} (h : InvFits x) : InvFits (plain x) := by
  induction h with
  | mk hf hl _ ih =>
    rw [plain]
    refine .mk (plainFn_fits hf) (by rw [plains_length]; exact hl) (fun y hy => ?_)
    obtain ⟨z, hz, e⟩ := mem_plains hy
    rw [e]; exact ih z hz

end Soroban.Preimage
