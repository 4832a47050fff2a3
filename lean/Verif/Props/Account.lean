import Verif.Lemmas.Account
import Verif.Props.HostCase
/-!
C50: who can sign for a Stellar account. C51: what a signature is about.
-/
namespace Soroban.Props
open Soroban Soroban.Auth Soroban.Account Soroban.Account.Spec

/-! ### C50 -/

/-- C50: authentication of an account succeeds exactly if the account exists and the signature value is a list of signatures that
sign the payload for it. -/
theorem C50_authentication (verify : Nat → Nat → Nat → Bool) (account : Res AccountEntry) (payload : Nat)
    (signatures : Res (List (Res Sig))) (hm : ∀ a, account = .ok a → a.masterWeight ≤ 255) :
    checkAccount verify account payload signatures = .ok () ↔
      ∃ a sigs, account = .ok a ∧ signatures = .ok (sigs.map .ok) ∧ Signed verify a payload sigs := by
  unfold checkAccount
  cases signatures with
  | error e =>
    constructor
    · intro h; cases h
    · rintro ⟨_, _, _, h, _⟩; cases h
  | ok l =>
    dsimp only
    by_cases h1 : l.length > maxSignatures
    · rw [if_pos h1]
      constructor
      · intro h; cases h
      · rintro ⟨a, sigs, -, h, hs⟩
        cases h
        have := hs.few
        simp only [List.length_map, maxSignatures] at h1
        omega
    rw [if_neg h1]
    by_cases h2 : l.length = 0
    · rw [if_pos h2]
      constructor
      · intro h; cases h
      · rintro ⟨a, sigs, -, h, hs⟩
        cases h
        have := hs.some
        simp only [List.length_map] at h2
        omega
    rw [if_neg h2]
    simp only [maxSignatures] at h1
    cases account with
    | error e =>
      constructor
      · intro h; cases h
      · rintro ⟨_, _, h, _⟩; cases h
    | ok a =>
      dsimp only
      have hb : 0 + 255 * l.length ≤ 4294967295 := by omega
      constructor
      · intro h
        cases hl : sigLoop verify a payload none 0 l with
        | error e => rw [hl] at h; cases h
        | ok w =>
          rw [hl] at h
          dsimp only at h
          obtain ⟨sigs, q1, -, q3, q4, q5, q6⟩ := (sigLoop_iff (hm a rfl) l none 0 w hb).1 hl
          subst q1
          by_cases hw : w < a.med
          · rw [if_pos hw] at h; cases h
          · simp only [List.length_map] at h1 h2
            exact ⟨a, sigs, rfl, rfl, ⟨by omega, by omega, q3, q4, q5, by omega⟩⟩
      · rintro ⟨a', sigs, ha, hl, hs⟩
        cases ha; cases hl
        rw [(sigLoop_iff (hm a rfl) (sigs.map .ok) none 0 _ hb).2
          ⟨sigs, rfl, fun _ h => (by cases h), hs.ordered, hs.valid, hs.signer, rfl⟩]
        have := hs.enough
        dsimp only
        rw [if_neg (by omega)]

/-- C50: keys whose weight is below the medium threshold cannot authenticate the account, whatever signature value is
supplied: if the only keys with valid signatures of the payload are in `ks`, authentication fails. -/
theorem C50_below_threshold (verify : Nat → Nat → Nat → Bool) (a : AccountEntry) (payload : Nat) (hm : a.masterWeight ≤ 255)
    (ks : List Nat) (hk : ∀ k s, verify k payload s = true → k ∈ ks) (hw : totalWeight a ks < a.med)
    (signatures : Res (List (Res Sig))) : checkAccount verify (.ok a) payload signatures ≠ .ok () := by
  intro h
  obtain ⟨a', sigs, ha, -, hs⟩ := (C50_authentication verify (.ok a) payload signatures (fun _ h => (by cases h; exact hm))).1 h
  cases ha
  have h1 := totalWeight_subset a (hs.ordered.imp (fun h => Nat.ne_of_lt h)) (m := ks) (fun k hkm => by
    obtain ⟨s, hs', rfl⟩ := List.mem_map.1 hkm
    exact hk _ _ (hs.valid s hs'))
  have := hs.enough
  omega

/-- C50: signatures of an existing account that are well formed and valid but do not sign the payload for it are refused with the
authentication error, which is number 5 of the errors of built-in contracts. -/
theorem C50_refused (verify : Nat → Nat → Nat → Bool) (a : AccountEntry) (payload : Nat) (hm : a.masterWeight ≤ 255)
    (sigs : List Sig) (hv : ∀ s ∈ sigs, verify s.publicKey payload s.signature = true) (hn : ¬ Signed verify a payload sigs) :
    checkAccount verify (.ok a) payload (.ok (sigs.map .ok)) = .error (.contract 5) := by
  have hne : checkAccount verify (.ok a) payload (.ok (sigs.map .ok)) ≠ .ok () := by
    intro h
    obtain ⟨a', sigs', ha, hs, hk⟩ := (C50_authentication verify (.ok a) payload _ (fun _ h => (by cases h; exact hm))).1 h
    cases ha
    have hi : Function.Injective (Except.ok : Sig → Res Sig) := fun _ _ h => by cases h; rfl
    have : sigs = sigs' := List.map_injective_iff.mpr hi (by injection hs)
    exact hn (this ▸ hk)
  have hl : ∀ (l : List Sig) (p : Option Nat) (w : Nat), (∀ s ∈ l, verify s.publicKey payload s.signature = true) →
      ∀ e, sigLoop verify a payload p w (l.map .ok) = .error e → e = .contract 5 := by
    intro l
    induction l with
    | nil => intro p w _ e h; cases h
    | cons s l ih =>
      intro p w hv e h
      rw [List.map_cons, sigLoop, hv s List.mem_cons_self] at h
      dsimp only at h
      by_cases h1 : (!keyAfter p s.publicKey) = true
      · rw [if_pos h1] at h; cases h; rfl
      · rw [if_neg h1, if_neg (by simp)] at h
        by_cases h2 : weightFromAccount s.publicKey a = 0
        · rw [if_pos h2] at h; cases h; rfl
        · rw [if_neg h2] at h
          exact ih _ _ (fun t ht => hv t (List.mem_cons_of_mem _ ht)) e h
  unfold checkAccount at hne ⊢
  dsimp only at hne ⊢
  by_cases h1 : (sigs.map Except.ok : List (Res Sig)).length > maxSignatures
  · rw [if_pos h1]; rfl
  · rw [if_neg h1] at hne ⊢
    by_cases h2 : (sigs.map Except.ok : List (Res Sig)).length = 0
    · rw [if_pos h2]; rfl
    · rw [if_neg h2] at hne ⊢
      cases hk : sigLoop verify a payload none 0 (sigs.map .ok) with
      | error e => rw [hl _ _ _ hv e hk]
      | ok w =>
        rw [hk] at hne
        dsimp only at hne ⊢
        by_cases h3 : w < a.med
        · rw [if_pos h3]; rfl
        · rw [if_neg h3] at hne; exact absurd rfl hne

/-- C50: keys that are not signers of the account cannot authenticate it, even if its medium threshold is 0. -/
theorem C50_strangers (verify : Nat → Nat → Nat → Bool) (a : AccountEntry) (payload : Nat) (hm : a.masterWeight ≤ 255)
    (hk : ∀ k s, verify k payload s = true → keyWeight a k = 0)
    (signatures : Res (List (Res Sig))) : checkAccount verify (.ok a) payload signatures ≠ .ok () := by
  intro h
  obtain ⟨a', sigs, ha, -, hs⟩ := (C50_authentication verify (.ok a) payload signatures (fun _ h => (by cases h; exact hm))).1 h
  cases ha
  cases sigs with
  | nil => have := hs.some; simp at this
  | cons s ss =>
    have h1 := hs.signer s (by simp)
    have h2 := hk _ _ (hs.valid s (by simp))
    omega

/-- C50 in a transaction: the host authenticates the account of an authorization entry only if its signatures sign the payload
for the account as it is in the ledger at that moment. `acctOf` reads account entries; `payloads` and `signatures` belong to the
entries of the transaction. -/
theorem C50_transaction {E : Host.HEnv} {st : Storage.Store Host.LKey Host.LVal} {orig : List Acct} (h : Host.Spec.TxStart E st orig)
    (verify : Nat → Nat → Nat → Bool) (acctOf : Host.LVal → Res AccountEntry) (payloads : Nat → Nat)
    (signatures : Nat → Res (List (Res Sig))) (hm : ∀ v a, acctOf v = .ok a → a.masterWeight ≤ 255)
    (hE : ∀ i v, E.accountCheck i v = checkAccount verify (acctOf v) (payloads i) (signatures i))
    {s s' : Host.Host} (hr : Host.Spec.Reach E st orig s) {i id : Nat} {t : Acct} (hs : t.source = false) (ha : t.addr = .account id)
    {run : Host.Host → Host.Host × Res Host.RVal} (ho : Host.authenticate E s i t run = (s', .ok ())) :
    ∃ v l a sigs, Host.Spec.visible E s (.account id) = some (v, l) ∧ acctOf v = .ok a ∧ signatures i = .ok (sigs.map .ok) ∧
      Signed verify a (payloads i) sigs := by
  unfold Host.authenticate at ho
  rw [if_neg (by simp [hs]), ha] at ho
  dsimp only at ho
  have hok := (Host.reach_hok h hr).st
  unfold Host.liftSt at ho
  dsimp only at ho
  rcases hg : Storage.getEntry E.sto s.st (.account id) with ⟨st1, r⟩
  rw [hg] at ho
  cases r with
  | error e => cases ho
  | ok e =>
    obtain ⟨v, l⟩ := e
    have hc : E.accountCheck i v = .ok () := congrArg Prod.snd ho
    rw [hE] at hc
    obtain ⟨a, sigs, q1, q2, q3⟩ := (C50_authentication _ _ _ _ (fun a => hm v a)).1 hc
    exact ⟨v, l, a, sigs, (Host.getEntry_val hok (by rw [hg])).1, q1, q2, q3⟩

namespace AccountCase

/-- An account with medium threshold 12, whose own key has weight 1; key 7 has weight 300, key 8 weight 11. -/
def acct : AccountEntry :=
  { id := 5, masterWeight := 1, low := 1, med := 12, high := 200, signers := [(.hashX 7, 99), (.ed25519 7, 300), (.ed25519 8, 11)] }

/-- The signature of payload `p` with key `k` is `k + p`. -/
def verify (k p s : Nat) : Bool := decide (s = k + p)

def accepts (l : List Sig) : Bool :=
  match checkAccount verify (.ok acct) 100 (.ok (l.map .ok)) with
  | .ok _ => true
  | .error _ => false

/-- Keys 5 and 8 together reach the threshold, key 8 alone or twice does not; an order other than that of the keys is an error. -/
example : accepts [⟨5, 105⟩, ⟨8, 108⟩] = true ∧ accepts [⟨8, 108⟩] = false ∧ accepts [⟨8, 108⟩, ⟨8, 108⟩] = false ∧
    accepts [⟨8, 108⟩, ⟨5, 105⟩] = false ∧ accepts [⟨7, 107⟩] = true ∧ accepts [⟨7, 108⟩] = false ∧ accepts [] = false ∧
    accepts [⟨7, 107⟩, ⟨9, 109⟩] = false := by decide

example : Signed verify acct 100 [⟨5, 105⟩, ⟨8, 108⟩] := by
  refine ⟨by decide, by decide, by decide, ?_, ?_, by decide⟩ <;> (intro s hs; simp at hs; rcases hs with rfl | rfl <;> decide)

/-- Key 8 alone, and a key that is not a signer, are refused with this error. -/
example : checkAccount verify (.ok acct) 100 (.ok ([⟨8, 108⟩].map .ok)) = .error (.contract 5) ∧
    checkAccount verify (.ok acct) 100 (.ok ([⟨7, 107⟩, ⟨9, 109⟩].map .ok)) = .error (.contract 5) :=
  ⟨C50_refused _ _ _ (by decide) _ (by decide) (fun h => absurd h.enough (by decide)),
    C50_refused _ _ _ (by decide) _ (by decide) (fun h => absurd (h.signer ⟨9, 109⟩ (by simp)) (by decide))⟩

/-- The hypotheses of `C50_below_threshold` are met when only the holder of key 8 signs. -/
example (signatures : Res (List (Res Sig))) : checkAccount (fun k p s => verify k p s && k == 8) (.ok acct) 100 signatures ≠ .ok () :=
  C50_below_threshold _ _ _ (by decide) [8] (fun k s h => by simp at h; simp [h.2]) (by decide) _

end AccountCase

/-! ### C51 -/

mutual
theorem noneUsed_fromXdr : ∀ x : XInv, Account.Spec.NoneUsed (invFromXdr x)
  | .mk f subs => by rw [invFromXdr]; exact .mk _ _ (noneUsed_fromXdrs subs)
theorem noneUsed_fromXdrs : ∀ (xs : List XInv), ∀ i ∈ invsFromXdr xs, Account.Spec.NoneUsed i
  | [], i, h => by cases h
  | x :: xs, i, h => by
    rw [invsFromXdr] at h
    rcases List.mem_cons.mp h with rfl | h
    · exact noneUsed_fromXdr x
    · exact noneUsed_fromXdrs xs i h
end

/-- C51: no invocation of an entry has been used when the transaction begins. -/
theorem C51_none_used (x : XInv) : Account.Spec.NoneUsed (invFromXdr x) := noneUsed_fromXdr x

private theorem forAddress_iff (k : CredKind) : Account.Spec.ForAddress k ↔ k.withAddress = true := by
  cases k <;> simp [Account.Spec.ForAddress, CredKind.withAddress]

/-- C51: two authorization entries have the same signature payload only if they are for the same network, nonce, expiration and
tree of invocations, and have the same kind of payload; the payloads of the newer credentials are also for the same address.
`hash` is collision-free. -/
theorem C51_payload_binds {D : Type} (hash : Preimage → D) (hi : Function.Injective hash) {net net' : Nat} {t t' : Account.Entry}
    {x x' : XInv} (hx : t.root = invFromXdr x) (hx' : t'.root = invFromXdr x') {d : D}
    (h : signaturePayload hash net t = .ok d) (h' : signaturePayload hash net' t' = .ok d) :
    net = net' ∧ t.nonce = t'.nonce ∧ SameInv x x' ∧ (Account.Spec.ForAddress t.kind ↔ Account.Spec.ForAddress t'.kind) ∧
      (Account.Spec.ForAddress t.kind → t.addr = t'.addr) := by
  rw [forAddress_iff, forAddress_iff]
  unfold signaturePayload signaturePreimage at h h'
  cases hn : t.nonce with
  | none => rw [hn] at h; cases h
  | some n =>
    cases hn' : t'.nonce with
    | none => rw [hn'] at h'; cases h'
    | some n' =>
      rw [hn] at h; rw [hn'] at h'
      obtain ⟨n, l⟩ := n
      obtain ⟨n', l'⟩ := n'
      dsimp only at h h'
      have he := hi ((Except.ok.inj h).trans (Except.ok.inj h').symm)
      rw [hx, hx', toXdr_fromXdr, toXdr_fromXdr] at he
      unfold SameInv
      cases hk : t.kind.withAddress <;> cases hk' : t'.kind.withAddress <;> rw [hk, hk'] at he
      · simp at he
        obtain ⟨h1, h2, h3, h4⟩ := he
        subst h1 h2 h3
        exact ⟨rfl, rfl, h4, Iff.rfl, fun h => (by cases h)⟩
      · simp at he
      · simp at he
      · simp at he
        obtain ⟨h1, h2, h3, h4, h5⟩ := he
        subst h1 h3 h4
        exact ⟨rfl, rfl, h5, Iff.rfl, fun _ => h2⟩

/-- C51: equal entries have equal payloads: there is nothing else in the payload. The two ways to write the creation of a
contract without constructor arguments have the same payload. -/
theorem C51_payload_complete {D : Type} (hash : Preimage → D) (net : Nat) {t t' : Account.Entry} {x x' : XInv}
    (hx : t.root = invFromXdr x) (hx' : t'.root = invFromXdr x') (hn : t.nonce = t'.nonce) (hs : SameInv x x')
    (hk : Account.Spec.ForAddress t.kind ↔ Account.Spec.ForAddress t'.kind)
    (ha : Account.Spec.ForAddress t.kind → t.addr = t'.addr) :
    signaturePayload hash net t = signaturePayload hash net t' := by
  rw [forAddress_iff, forAddress_iff, ← Bool.eq_iff_iff] at hk
  rw [forAddress_iff] at ha
  unfold signaturePayload signaturePreimage
  rw [hx, hx', toXdr_fromXdr, toXdr_fromXdr, hn, ← hk, hs]
  cases t'.nonce with
  | none => rfl
  | some n =>
    dsimp only
    cases h : t.kind.withAddress with
    | false => rfl
    | true => rw [ha h]

/-- The payload of the oldest credentials is not for a particular address: entries of different addresses with the same nonce,
expiration and tree have the same payload. -/
theorem C51_old_payload_any_address {D : Type} (hash : Preimage → D) (net : Nat) (a b : Addr) (n : Int) (l : Nat) (r : Inv) :
    signaturePayload hash net ⟨a, .address, some (n, l), r⟩ = signaturePayload hash net ⟨b, .address, some (n, l), r⟩ := rfl

/-- C51: the payload of an entry is the same in all states of a transaction: what has been used of it does not change it. -/
theorem C51_payload_constant {E : Host.HEnv} {st : Storage.Store Host.LKey Host.LVal} {orig : List Acct}
    (h : Host.Spec.TxStart E st orig) {s : Host.Host} (hr : Host.Spec.Reach E st orig s) {i : Nat} {a : Acct}
    (ha : s.auth.accts[i]? = some a) : ∃ o, orig[i]? = some o ∧ ∀ {D : Type} (hash : Preimage → D) (net : Nat) (k : CredKind) (n : Option (Int × Nat)),
      signaturePayload hash net ⟨a.addr, k, n, a.tr.root⟩ = signaturePayload hash net ⟨o.addr, k, n, o.tr.root⟩ := by
  obtain ⟨o, ho, hok⟩ := (Host.reach_hok h hr).uok.acct i a ha
  refine ⟨o, ho, fun hash net k n => ?_⟩
  have : invToXdr false a.tr.root = invToXdr false o.tr.root := by
    rw [← toXdr_reset a.tr.root, hok.shape, toXdr_reset]
  unfold signaturePayload signaturePreimage
  simp only [this, hok.addr]

/-- C51: an account contract is given a context for every function of the tree it is asked about: the contexts are those of the
functions in order, so a function occurs in the tree exactly if it has a context in the list. -/
theorem C51_contexts (saltOf : Nat → Nat) (i : Inv) (cs : List AuthContext) :
    authContexts saltOf i = .ok cs ↔ (functions i).map (contextOf saltOf) = cs.map .ok := by
  unfold authContexts
  rw [pushContexts_spec]
  constructor
  · rintro ⟨c, h1, rfl⟩; simpa using h1
  · intro h; exact ⟨cs, h, by simp⟩

theorem C51_nothing_hidden {saltOf : Nat → Nat} {i : Inv} {cs : List AuthContext} (h : authContexts saltOf i = .ok cs) :
    (∀ f, Occurs f i → ∃ c ∈ cs, contextOf saltOf f = .ok c) ∧ (∀ c ∈ cs, ∃ f, Occurs f i ∧ contextOf saltOf f = .ok c) := by
  have h1 := (C51_contexts saltOf i cs).1 h
  constructor
  · intro f hf
    have hm : contextOf saltOf f ∈ cs.map Except.ok := by rw [← h1]; exact List.mem_map_of_mem ((functions_iff f i).2 hf)
    obtain ⟨c, hc, he⟩ := List.mem_map.1 hm
    exact ⟨c, hc, he.symm⟩
  · intro c hc
    have hm : (Except.ok c : Res AuthContext) ∈ (functions i).map (contextOf saltOf) := by rw [h1]; exact List.mem_map_of_mem hc
    obtain ⟨f, hf, he⟩ := List.mem_map.1 hm
    exact ⟨f, (functions_iff f i).1 hf, he⟩

/-- C51: a context of a call is the call itself. -/
theorem C51_call_context {saltOf : Nat → Nat} {f : AuthFn} {c : Addr} {n : Name} {as : List Nat}
    (h : contextOf saltOf f = .ok (.contract c n as)) : f = .call c n as := by
  unfold contextOf at h
  cases f with
  | call c' n' as' => cases h; rfl
  | create as' =>
    dsimp only at h
    by_cases h1 : as'.exec = .asset
    · rw [if_pos h1] at h; cases h
    rw [if_neg h1] at h
    by_cases h2 : as'.fromAsset = true
    · rw [if_pos h2] at h; cases h
    rw [if_neg h2] at h
    by_cases h3 : as'.ctorArgs = []
    · rw [if_pos h3] at h; cases h
    · rw [if_neg h3] at h; cases h

/-- What the context of a creation says about it: the executable, the salt and the constructor arguments, but not the address
that deploys the contract. -/
theorem C51_create_context {saltOf : Nat → Nat} {as : CreateArgs} {c : AuthContext} (h : contextOf saltOf (.create as) = .ok c) :
    as.exec ≠ .asset ∧ as.fromAsset = false ∧
      c = (if as.ctorArgs = [] then .create as.exec (saltOf as.preimage) else .createWithCtor as.exec (saltOf as.preimage) as.ctorArgs) := by
  unfold contextOf at h
  dsimp only at h
  by_cases h1 : as.exec = .asset
  · rw [if_pos h1] at h; cases h
  rw [if_neg h1] at h
  by_cases h2 : as.fromAsset = true
  · rw [if_pos h2] at h; cases h
  rw [if_neg h2] at h
  refine ⟨h1, by simpa using h2, ?_⟩
  by_cases h3 : as.ctorArgs = []
  · rw [if_pos h3] at h ⊢; cases h; rfl
  · rw [if_neg h3] at h ⊢; cases h; rfl

/-- Creations by different deployers with the same salt have the same context (their payloads differ). -/
theorem C51_create_context_any_deployer {saltOf : Nat → Nat} {p q : Nat} (h : saltOf p = saltOf q) (e : Exec) (as : List Nat) :
    contextOf saltOf (.create ⟨p, false, e, as⟩) = contextOf saltOf (.create ⟨q, false, e, as⟩) := by
  simp [contextOf, h]

namespace AccountCase

/-- A tree with a call that creates a contract. -/
def x : XInv := .mk (.call (.contract 1) [97] [3]) [.mk (.create 40 false (.wasm 7)) [], .mk (.call (.contract 2) [98] []) []]
/-- The same with the creation written in the other way. -/
def y : XInv := .mk (.call (.contract 1) [97] [3]) [.mk (.createV2 ⟨40, false, .wasm 7, []⟩) [], .mk (.call (.contract 2) [98] []) []]

example : SameInv x y := rfl
example : ¬ SameInv x (.mk (.call (.contract 1) [97] [3]) [.mk (.call (.contract 2) [98] []) []]) := by
  intro h; simp [SameInv, x, plainInv, plainInvs] at h

example : signaturePayload id 1 ⟨.account 9, .addressV2, some (5, 300), invFromXdr x⟩ =
    signaturePayload id 1 ⟨.account 9, .withDelegates, some (5, 300), invFromXdr y⟩ :=
  C51_payload_complete id 1 rfl rfl rfl rfl Iff.rfl (fun _ => rfl)

example : authContexts (· % 10) (invFromXdr x) = .ok [.contract (.contract 1) [97] [3], .create (.wasm 7) 0, .contract (.contract 2) [98] []] := by
  rfl

end AccountCase

end Soroban.Props
