import Verif.Props.HostCase
/-! C27-C29: authorization. -/
namespace Soroban.Props
open Soroban Soroban.Auth Soroban.Host Soroban.Host.Spec
open Soroban.Storage (Store Entry)
open Soroban.Storage.Spec (Ledger)

/-! ### C27 -/

/-- The uses of authorization entries that are recorded in a state of the host: each is a different node of the trees that came
with the transaction, for the function that needed authorization; and below the root of a tree, the node above it was used
earlier, by a frame that encloses the frame of this use. `frames` are the numbers of the frames, see `C27_frame_numbers`. -/
structure UsesOk (orig : List Acct) (uses : List Use) : Prop where
  distinct : uses.Pairwise (fun u v => ¬ (u.entry = v.entry ∧ u.path = v.path))
  signed : ∀ u ∈ uses, ∃ o n, orig[u.entry]? = some o ∧ o.addr = u.addr ∧ o.tr.root.at? u.path = some n ∧ n.fn = u.fn
  enclosed : ∀ later u earlier, uses = later ++ u :: earlier → ∀ q i, u.path = q ++ [i] →
    ∃ v ∈ earlier, v.entry = u.entry ∧ v.path = q ∧ v.frames <:+ u.frames ∧ v.frames ≠ u.frames

theorem usesOk {orig : List Acct} {m : Mgr} (h : UOk orig m) : UsesOk orig m.uses := by
  refine ⟨h.nodup, h.uses, fun later u earlier he q i hq => ?_⟩
  obtain ⟨v, hv, h1, h2, h3, h4⟩ := h.parents later u earlier he q i hq
  exact ⟨v, hv, h1, h2, h3, fun hf => by rw [hf] at h4; exact absurd h4 (Nat.lt_irrefl _)⟩

/-- C27: whenever `require_auth` succeeds, then for the function that is running, with these arguments,
 - the address is the contract that called it directly, or
 - it is matched by a so far unused node of an authorization that a contract gave in advance for its own calls, or
 - it is matched by a node of an authorization entry of this address, which is then recorded as used. -/
theorem C27_require_auth {E : HEnv} {st : Store LKey LVal} {orig : List Acct} (h : TxStart E st orig) {s s' : Host}
    (hr : Reach E st orig s) {a : Addr} {args : List Nat} {check : Nat → Prog}
    (hq : requireAuth E s a args (fun i => run E (check i)) = (s', .ok ())) :
    ∃ fr rest, s.auth.stack = fr :: rest ∧
      (rest.head?.bind Frame.contract? = some a ∨
       InvokerMatch a (fr.toFn args) s.auth.invokers s'.auth.invokers ∨
       ∃ u extra, s'.auth.uses = extra ++ u :: s.auth.uses ∧ UsesOk orig s'.auth.uses ∧
         u.addr = a ∧ u.fn = fr.toFn args ∧ u.frames = s.auth.ids) := by
  have hs := reach_hok h hr
  unfold requireAuth at hq
  cases hst : s.auth.stack with
  | nil => rw [hst] at hq; cases hq
  | cons fr rest =>
    rw [hst] at hq
    simp only at hq
    refine ⟨fr, rest, rfl, ?_⟩
    have hg := requireInternal_good hs a (fr.toFn args) (run := fun i => run E (check i)) (fun i s1 h1 => run_good (check i) s1 h1)
    rw [hq] at hg
    rcases hg.2 rfl with hc | ⟨⟨u, extra, h1, h2, h3, h4⟩⟩
    · unfold requireInternal at hq
      generalize hci : s.auth.checkInvoker a (fr.toFn args) = c at hq hc
      obtain ⟨m, r⟩ := c
      simp only at hc
      subst hc
      simp only at hq
      cases hq
      unfold Mgr.checkInvoker at hci
      rw [hst] at hci
      cases rest with
      | nil =>
        generalize hl : invokerLoop fr.contract? a (fr.toFn args) s.auth.invokers = l at hci
        simp only at hci
        cases hci
      | cons below more =>
        simp only at hci
        by_cases hb : below.contract? = some a
        · left; simpa using hb
        · rw [if_neg hb] at hci
          generalize hl : invokerLoop fr.contract? a (fr.toFn args) s.auth.invokers = l at hci
          obtain ⟨l', r⟩ := l
          cases hci
          right; left
          exact (invokerLoop_true hl).2
    · right; right
      exact ⟨u, extra, h1, usesOk hg.1.ok.uok, h2, h3, h4⟩

/-- C27: at any time, and for all uses so far that have not been rolled back. -/
theorem C27_uses {E : HEnv} {st : Store LKey LVal} {orig : List Acct} (h : TxStart E st orig) {s : Host}
    (hr : Reach E st orig s) : UsesOk orig s.auth.uses :=
  usesOk (reach_hok h hr).uok

/-- C27: and for all uses in a successful transaction. -/
theorem C27_transaction {E : HEnv} {st : Store LKey LVal} {orig : List Acct} (h : TxStart E st orig) {hf : HostFn} {s' : Host}
    {v : RVal} (hi : invoke E (Host.init st orig) hf = (s', .ok v)) : UsesOk orig s'.auth.uses := by
  have := (invoke_spec (stOk_start h) h.auth hf).strong v (by rw [hi])
  rw [hi] at this
  exact usesOk this.2.1

/-- The contract frames on the call stack, top first. -/
def contractFrames (ctx : List Ctx) : List Frame :=
  ctx.filterMap (fun c => c.cid.map (fun id => .contract (.contract id) c.fn))

/-- Whether the frame is a contract frame; the others are for contract creations. -/
def notCreation : Frame → Bool
  | .contract _ _ => true
  | .create _ => false

/-- C27: the frames that authorization goes by are those of the call stack, with those of contract creations in between. So the
function that `require_auth` authorizes is that of the topmost contract frame, unless a contract is being created. -/
theorem C27_frames_are_the_call_stack {E : HEnv} {st : Store LKey LVal} {orig : List Acct} (h : TxStart E st orig) {s : Host}
    (hr : Reach E st orig s) : s.auth.stack.filter notCreation = contractFrames s.ctx := by
  have := (reach_hok h hr).frames
  have e : notCreation = isContractFrame := by funext f; cases f <;> rfl
  rw [e]; exact this

/-- C27: the frames on the stack are numbered in the order they were entered, and a number is not used again. -/
theorem C27_frame_numbers {E : HEnv} {st : Store LKey LVal} {orig : List Acct} (h : TxStart E st orig) {s : Host}
    (hr : Reach E st orig s) : s.auth.ids.length = s.auth.stack.length ∧ s.auth.ids.Pairwise (· > ·) ∧
      ∀ i ∈ s.auth.ids, i < s.auth.next := by
  refine ⟨(reach_hok h hr).mwf.idlen, ?_⟩
  have push : ∀ {m : Mgr} {f : Frame}, (m.ids.Pairwise (· > ·) ∧ ∀ i ∈ m.ids, i < m.next) →
      ((m.push f).ids.Pairwise (· > ·) ∧ ∀ i ∈ (m.push f).ids, i < (m.push f).next) := by
    intro m f hm
    refine ⟨List.pairwise_cons.mpr ⟨hm.2, hm.1⟩, fun i hi => ?_⟩
    show i < m.next + 1
    rcases List.mem_cons.mp hi with h | h
    · subst h; exact Nat.lt_succ_self _
    · exact Nat.lt_succ_of_lt (hm.2 i h)
  induction hr with
  | start => exact ⟨.nil, fun i hi => by cases hi⟩
  | @ran s s' p v hs hrun ih =>
    have hle := (run_good p s (reach_hok h hs)).le.auth
    rw [hrun] at hle
    rw [hle.ids]
    exact ⟨ih.1, fun i hi => Nat.lt_of_lt_of_le (ih.2 i hi) hle.next⟩
  | @called s s1 id fn inst hs _ _ _ hl ih =>
    have hs1 := (loads_read (reach_hok h hs).st hl).only.rest
    rw [hs1]
    exact push ih
  | matched _ _ ih => exact ih
  | @checking s s1 s2 id inst b hs _ hp hl ih =>
    have hs1 : StOk E s1.st ∧ s1.auth = s.auth := by
      rcases hp with ⟨_, rfl⟩ | ⟨_, hp⟩
      · exact ⟨(reach_hok h hs).st, rfl⟩
      · have h1 := persist_only (E := E) (reach_hok h hs).st; rw [hp] at h1
        exact ⟨h1.st.ok, by have := h1.rest; simp only at this; rw [this]⟩
    have hs2 := (loads_read hs1.1 hl).only.rest
    rw [hs2]
    refine push ?_
    show (s1.auth.ids.Pairwise (· > ·) ∧ ∀ i ∈ s1.auth.ids, i < s1.auth.next)
    rw [hs1.2]
    exact ih
  | creating _ ih => exact push ih
  | @created s s1 id ex hs hc ih =>
    have h1 : s1 = { s with st := s1.st } := by have h1 := (createWithId_only (E := E) (reach_hok h hs).st id ex).rest; rw [hc] at h1; exact h1
    rw [h1]; exact ih
  | @examined s s1 id b hs hc ih =>
    have h1 : s1 = { s with st := s1.st } := by have h1 := (supportsCtor_only (E := E) (reach_hok h hs).st id).rest; rw [hc] at h1; exact h1
    rw [h1]; exact ih

/-! ### C28 -/

/-- Authorizations that contracts have given in advance and that are in scope: the call they were given for has begun. -/
def inScope (t : Invoker) : Bool := !t.tr.stack.isEmpty

/-- C28: after a call that failed, the authorization state is exactly as before the call: which nodes of which entries are used,
which entries are verified, the frames, and the authorizations given by contracts that are in scope. -/
theorem C28_failed_call_restores_authorizations {E : HEnv} {st : Store LKey LVal} {orig : List Acct} (h : TxStart E st orig)
    {s s' : Host} (hr : Reach E st orig s) (id : Nat) (fn : Name) (p : Prog) {e : Err}
    (hc : call E s id fn (run E p) = (s', .error e)) :
    s'.auth.accts = s.auth.accts ∧ s'.auth.uses = s.auth.uses ∧ s'.auth.stack = s.auth.stack ∧
    s'.auth.ids = s.auth.ids ∧ s'.auth.invokers.filter inScope = s.auth.invokers.filter inScope := by
  have hcl : Called E orig id fn s (call E s id fn (run E p)) :=
    callN_prohibited (reach_hok h hr) (fun h => by cases h) (run_good p)
  have hle := hcl.good.le.auth.ids
  rw [hc] at hcl hle
  have hf := hcl.failed e rfl
  exact ⟨hf.accts, hf.uses, hf.stack, hle, hf.invokers⟩

/-- C28 for `try_call`, which lets the caller continue: if it returns an error value, the authorizations are as before. -/
theorem C28_try_call_restores_authorizations {E : HEnv} {st : Store LKey LVal} {orig : List Acct} (h : TxStart E st orig)
    {s s' : Host} (hr : Reach E st orig s) (id : Nat) (fn : Name) (p : Prog) {e : Err}
    (hc : tryCall E s id fn (run E p) = (s', .ok (.err e))) :
    s'.auth.accts = s.auth.accts ∧ s'.auth.uses = s.auth.uses ∧ s'.auth.stack = s.auth.stack ∧
    s'.auth.ids = s.auth.ids ∧ s'.auth.invokers.filter inScope = s.auth.invokers.filter inScope := by
  cases hres : (call E s id fn (run E p)).2 with
  | error e' =>
    have hs : s' = (call E s id fn (run E p)).1 := (congrArg Prod.fst hc).symm
    refine C28_failed_call_restores_authorizations h hr id fn p (e := e') ?_
    rw [hs, ← hres]
  | ok v =>
    have h2 : tryResult (call E s id fn (run E p)).2 = .ok (.err e) := congrArg Prod.snd hc
    rw [hres] at h2
    exact absurd (by rw [hres]; exact h2) (call_not_err (e := e))

/-- C28: so a node that no entry had used before the failed call is unused after it, and vice versa. -/
theorem C28_nodes_usable_again {E : HEnv} {st : Store LKey LVal} {orig : List Acct} (h : TxStart E st orig)
    {s s' : Host} (hr : Reach E st orig s) (id : Nat) (fn : Name) (p : Prog) {e : Err}
    (hc : call E s id fn (run E p) = (s', .error e)) (i : Nat) (q : List Nat) :
    (∃ u ∈ s'.auth.uses, u.entry = i ∧ u.path = q) ↔ ∃ u ∈ s.auth.uses, u.entry = i ∧ u.path = q := by
  rw [(C28_failed_call_restores_authorizations h hr id fn p hc).2.1]

/-- C28: a node is recorded as used exactly if a use of it is on record (so the record is what the host goes by). -/
theorem C28_record_is_faithful {E : HEnv} {st : Store LKey LVal} {orig : List Acct} (h : TxStart E st orig) {s : Host}
    (hr : Reach E st orig s) {i : Nat} {a : Acct} (ha : s.auth.accts[i]? = some a) {q : List Nat} {n : Inv}
    (hn : a.tr.root.at? q = some n) : n.used = true ↔ ∃ u ∈ s.auth.uses, u.entry = i ∧ u.path = q := by
  obtain ⟨o, _, hok⟩ := (reach_hok h hr).uok.acct i a ha
  exact hok.used q n hn

/-! ### C29 -/

/-- What holds of the entries that a successful transaction has used. -/
theorem used_entries {E : HEnv} {st : Store LKey LVal} {orig : List Acct} (h : TxStart E st orig) {hf : HostFn} {s' : Host}
    {v : RVal} (hi : invoke E (Host.init st orig) hf = (s', .ok v)) {u : Use} (hu : u ∈ s'.auth.uses) :
    ∃ o a, orig[u.entry]? = some o ∧ s'.auth.accts[u.entry]? = some a ∧ ALe o a ∧ a.verified = true := by
  obtain ⟨hs, huok, _, hle, hb⟩ := (invoke_spec (stOk_start h) h.auth hf).strong v (by rw [hi])
  rw [hi] at hs huok hle hb
  obtain ⟨a, ha, hv⟩ := hs.uses u hu
  obtain ⟨o, ho, _⟩ := huok.acct _ _ ha
  refine ⟨o, a, ho, ha, ?_, ?_⟩
  · obtain ⟨h1, h2⟩ := List.getElem?_eq_some_iff.mp ha
    obtain ⟨h3, h4⟩ := List.getElem?_eq_some_iff.mp ho
    have := (List.forall₂_iff_get.mp hle).2 u.entry h3 h1
    simp only [List.get_eq_getElem] at this
    rw [h2, h4] at this
    exact this
  · rcases hv with hv | hv
    · exact hv
    · rw [hb a (List.mem_of_getElem? ha)] at hv; cases hv

/-- C29: every authorization entry that a successful transaction has used, unless it has the credentials of the transaction
source account, was authenticated: its signature had not expired and did not last beyond the maximum lifetime; its nonce was
new, and is now in the ledger until the signature expires or longer; and the check of the account's signatures, or
`__check_auth` of the contract, has been carried out. -/
theorem C29_used_entries_are_authenticated {E : HEnv} {st : Store LKey LVal} {orig : List Acct} (h : TxStart E st orig)
    {hf : HostFn} {s' : Host} {v : RVal} (hi : invoke E (Host.init st orig) hf = (s', .ok v)) {u : Use}
    (hu : u ∈ s'.auth.uses) : ∃ o, orig[u.entry]? = some o ∧
      (o.source = true ∨ Authenticated E (visible E (Host.init st orig)) (visible E s') s'.trace u.entry o) := by
  obtain ⟨o, a, ho, ha, hle, hv⟩ := used_entries h hi hu
  obtain ⟨hs, _⟩ := (invoke_spec (stOk_start h) h.auth hf).strong v (by rw [hi])
  rw [hi] at hs
  refine ⟨o, ho, ?_⟩
  cases hsrc : o.source with
  | true => exact Or.inl rfl
  | false =>
    right
    have hp := hs.proven _ _ ha hv (by rw [hle.source]; exact hsrc)
    obtain ⟨n, l, mx, m, h1, h2, h3, h4, h5, h6, h7⟩ := hp.nonce
    rw [hle.nonce] at h1
    rw [hle.addr] at h6 h7
    refine ⟨⟨n, l, m, h1, h7, h6, h5⟩, ⟨n, l, mx, h1, h2, h3, h4⟩, ?_, ?_⟩
    · intro id hid; exact hp.account id (by rw [hle.addr]; exact hid)
    · intro id hid; exact hp.contract id (by rw [hle.addr]; exact hid)

/-- C29: two entries that a successful transaction has used never have the same address and nonce. -/
theorem C29_nonce_used_once_in_a_transaction {E : HEnv} {st : Store LKey LVal} {orig : List Acct} (h : TxStart E st orig)
    {hf : HostFn} {s' : Host} {v : RVal} (hi : invoke E (Host.init st orig) hf = (s', .ok v)) {u w : Use}
    (hu : u ∈ s'.auth.uses) (hw : w ∈ s'.auth.uses) {o o' : Acct} (ho : orig[u.entry]? = some o) (ho' : orig[w.entry]? = some o')
    (hs : o.source = false) (hs' : o'.source = false) {n : Int} {l l' : Nat} (hn : o.nonce = some (n, l))
    (hn' : o'.nonce = some (n, l')) (ha : o.addr = o'.addr) : u.entry = w.entry := by
  obtain ⟨o1, a, h1, h2, h3, h4⟩ := used_entries h hi hu
  obtain ⟨o2, b, g1, g2, g3, g4⟩ := used_entries h hi hw
  rw [ho] at h1; cases h1
  rw [ho'] at g1; cases g1
  obtain ⟨hst, _⟩ := (invoke_spec (stOk_start h) h.auth hf).strong v (by rw [hi])
  rw [hi] at hst
  refine hst.distinct _ _ a b h2 g2 h4 g4 ?_ ?_ ?_ ?_
  · rw [h3.source]; exact hs
  · rw [g3.source]; exact hs'
  · rw [h3.addr, g3.addr]; exact ha
  · rw [h3.nonce, g3.nonce, hn, hn']; rfl

/-- The nonce is in the ledger at least until ledger `l`. -/
def Spent (L : Ledger LKey LVal) (a : Addr) (n : Int) (l : Nat) : Prop :=
  ∃ m, l ≤ m ∧ L (.nonce a n) = some (.void, some m)

/-- A nonce that a transaction consumes is new, and in the ledger afterwards. -/
theorem consumes_spent {t : Tx} {seq : Nat} {L L' : Ledger LKey LVal} (hst : Step seq (some t) L L') {i : Nat} {a : Addr} {n : Int} {l : Nat}
    (hc : t.Consumes i a n l) : Spent L' a n l ∧ ∀ l0, seq ≤ l0 → ¬ Spent L a n l0 := by
  cases hst with
  | @success _ _ _ v hon hseq hok hcm =>
    obtain ⟨o, ho, haddr, hsrc, hnon, u, hu, hue⟩ := hc
    have hi : invoke t.E (Host.init t.st t.orig) t.hf = (t.result.1, .ok v) := Prod.ext rfl hok
    obtain ⟨o', ho', hauth⟩ := C29_used_entries_are_authenticated hon.start hi hu
    rw [hue, ho] at ho'; cases ho'
    rcases hauth with hsrc' | hauth
    · rw [hsrc] at hsrc'; cases hsrc'
    obtain ⟨n1, l1, m, h1, h2, h3, h4⟩ := hauth.nonce
    rw [hnon] at h1; cases h1
    rw [haddr] at h2 h3
    obtain ⟨_, _, hsle, _⟩ := (invoke_spec (stOk_start hon.start) hon.start.auth t.hf).strong v hok
    have hfp : t.result.1.st.footprint = t.st.footprint := hsle.fpE hon.mode
    have hmode : t.result.1.st.mode = .enforcing := hsle.mode.trans hon.mode
    -- the key is declared
    have hfpk : t.st.footprint.get (.nonce a n) ≠ none := by
      intro hnone
      have := (hsle.allowed (.nonce a n)).1 (by rw [hon.mode]; simp [Storage.permOf, Storage.Spec.allows, hnone])
      have h2' : ledger t.E t.st (.nonce a n) = none := h2
      have h3' : ledger t.E t.result.1.st (.nonce a n) = some (.void, some m) := h3
      have this' : ledger t.E t.result.1.st (.nonce a n) = ledger t.E t.st (.nonce a n) := this
      rw [h2', h3'] at this'; cases this'
    have hget : t.result.1.st.map.get (.nonce a n) = some (some (.void, some m)) := by
      have h3' : Storage.Spec.absMap t.E.sto t.result.1.st.mode t.result.1.st.map (.nonce a n) = some (.void, some m) := h3
      rw [hmode] at h3'
      simp only [Storage.Spec.absMap] at h3'
      cases hg : t.result.1.st.map.get (.nonce a n) with
      | none => rw [hg] at h3'; cases h3'
      | some e => rw [hg] at h3'; simp only at h3'; rw [h3']
    refine ⟨?_, ?_⟩
    · have := hcm (.nonce a n)
      rw [hfp, if_neg hfpk, hget] at this
      obtain ⟨m', hm', hle⟩ := this
      exact ⟨m', Nat.le_trans h4 hle, hm'⟩
    · rintro l0 hl0 ⟨m0, hm0, hL⟩
      have hcov := (stOk_start hon.start).map.cover hon.mode (.nonce a n) (by
        simp only [Storage.Spec.allows]
        cases hg : t.st.footprint.get (.nonce a n) with
        | none => exact absurd hg hfpk
        | some _ => rfl)
      cases hg : t.st.map.get (.nonce a n) with
      | none => rw [hg] at hcov; cases hcov
      | some e =>
        have he := hon.reads _ _ hg
        have h2' : Storage.Spec.absMap t.E.sto t.st.mode t.st.map (.nonce a n) = none := h2
        rw [hon.mode] at h2'
        simp only [Storage.Spec.absMap, hg] at h2'
        rw [h2', hL] at he
        unfold Storage.Spec.view at he
        rw [hon.start.keys] at he
        simp only [keysOf] at he
        rw [if_pos (by omega)] at he
        cases he

/-- A nonce stays in the ledger until the signature has expired. -/
theorem spent_step {t : Option Tx} {seq : Nat} {L L' : Ledger LKey LVal} (hst : Step seq t L L') {a : Addr} {n : Int} {l : Nat}
    (hs : Spent L a n l) (hl : seq ≤ l) : Spent L' a n l := by
  obtain ⟨m, hm, hL⟩ := hs
  cases hst with
  | failure => exact ⟨m, hm, hL⟩
  | @expire _ k v l0 _ hk hlt =>
    refine ⟨m, hm, ?_⟩
    unfold Storage.Spec.Ledger.set
    rw [if_neg]
    · exact hL
    · intro hkk; rw [← hkk, hL] at hk; cases hk; omega
  | @success t _ _ v hon hseq hok hcm =>
    obtain ⟨_, _, hsle, _⟩ := (invoke_spec (stOk_start hon.start) hon.start.auth t.hf).strong v hok
    have hfp : t.result.1.st.footprint = t.st.footprint := hsle.fpE hon.mode
    have hmode : t.result.1.st.mode = .enforcing := hsle.mode.trans hon.mode
    have hck := hcm (.nonce a n)
    rw [hfp] at hck
    by_cases hfpk : t.st.footprint.get (.nonce a n) = none
    · rw [if_pos hfpk] at hck; exact ⟨m, hm, hck.trans hL⟩
    · rw [if_neg hfpk] at hck
      have hcov := (stOk_start hon.start).map.cover hon.mode (.nonce a n) (by
        simp only [Storage.Spec.allows]
        cases hg : t.st.footprint.get (.nonce a n) with
        | none => exact absurd hg hfpk
        | some _ => rfl)
      cases hg : t.st.map.get (.nonce a n) with
      | none => rw [hg] at hcov; cases hcov
      | some e =>
        have he := hon.reads _ _ hg
        rw [hL] at he
        unfold Storage.Spec.view at he
        rw [hon.start.keys] at he
        simp only [keysOf] at he
        rw [if_pos (by omega)] at he
        have h0 : ledger t.E t.st (.nonce a n) = some (.void, some m) := by
          show Storage.Spec.absMap t.E.sto t.st.mode t.st.map (.nonce a n) = _
          rw [hon.mode]
          simp only [Storage.Spec.absMap, hg, he]
        have h1 : Storage.Spec.absMap t.E.sto t.result.1.st.mode t.result.1.st.map (.nonce a n) = some (.void, some m) :=
          hsle.ledger.nonce a n _ h0
        rw [hmode] at h1
        simp only [Storage.Spec.absMap] at h1
        cases hg' : t.result.1.st.map.get (.nonce a n) with
        | none => rw [hg'] at h1; cases h1
        | some e' =>
          rw [hg'] at h1 hck
          simp only at h1
          subst h1
          obtain ⟨m', hm', hle⟩ := hck
          exact ⟨m', Nat.le_trans hm hle, hm'⟩

theorem history_spent {h : List (Nat × Option Tx)} {L L' : Ledger LKey LVal} (hh : History h L L') {a : Addr} {n : Int} {l : Nat}
    (hs : Spent L a n l) {seq : Nat} {t : Tx} {rest pre : List (Nat × Option Tx)} (he : h = pre ++ (seq, some t) :: rest) {i l' : Nat}
    (hc : t.Consumes i a n l') : l < seq := by
  induction hh generalizing pre with
  | nil => cases pre <;> cases he
  | @cons seq1 t1 rest1 L1 L2 L3 hst hle hh ih =>
    cases pre with
    | nil =>
      cases he
      by_contra hx
      exact (consumes_spent hst hc).2 l (by omega) hs
    | cons x pre =>
      simp only [List.cons_append, List.cons.injEq] at he
      obtain ⟨hx, he⟩ := he
      by_cases hl : seq1 ≤ l
      · exact ih (spent_step hst hs hl) he
      · have := hle (seq, some t) (by rw [he]; simp)
        simp only at this
        omega

/-- C29: no replay. If a transaction of a history has consumed a nonce of an address, and a later transaction consumes the same
nonce of the same address, then by that time the first signature has expired. -/
theorem C29_no_replay {pre mid post : List (Nat × Option Tx)} {s1 s2 : Nat} {t1 t2 : Tx} {L L' : Ledger LKey LVal}
    (hh : History (pre ++ (s1, some t1) :: (mid ++ (s2, some t2) :: post)) L L') {a : Addr} {n : Int} {i j l l' : Nat}
    (h1 : t1.Consumes i a n l) (h2 : t2.Consumes j a n l') : l < s2 := by
  induction pre generalizing L with
  | nil =>
    cases hh with
    | cons hst _ hh' => exact history_spent hh' (consumes_spent hst h1).1 rfl h2
  | cons x pre ih =>
    cases hh with
    | cons _ _ hh' => exact ih hh'

/-- C29: so an entry is never accepted twice: if the entry used later is the same one, with the same expiration, the later
transaction would have to come after its expiration, when it is not accepted. -/
theorem C29_entry_used_once {pre mid post : List (Nat × Option Tx)} {s1 s2 : Nat} {t1 t2 : Tx} {L L' : Ledger LKey LVal}
    (hh : History (pre ++ (s1, some t1) :: (mid ++ (s2, some t2) :: post)) L L') {a : Addr} {n : Int} {i j l : Nat}
    (h1 : t1.Consumes i a n l) (h2 : t2.Consumes j a n l) : False := by
  have hlt := C29_no_replay hh h1 h2
  have hst : ∃ La Lb, Step s2 (some t2) La Lb := by
    clear hlt h1 h2
    have aux : ∀ (q : List (Nat × Option Tx)) {M M' : Ledger LKey LVal}, History (q ++ (s2, some t2) :: post) M M' →
        ∃ La Lb, Step s2 (some t2) La Lb := by
      intro q
      induction q with
      | nil => intro M M' hq; cases hq with | cons hst _ _ => exact ⟨_, _, hst⟩
      | cons x q ih => intro M M' hq; cases hq with | cons _ _ hq' => exact ih hq'
    refine aux (pre ++ (s1, some t1) :: mid) (M := L) (M' := L') ?_
    simpa using hh
  obtain ⟨La, Lb, hst⟩ := hst
  cases hst with
  | @success _ _ _ v hon hseq hok _ =>
    obtain ⟨o, ho, _, hsrc, hnon, u, hu, hue⟩ := h2
    have hi : invoke t2.E (Host.init t2.st t2.orig) t2.hf = (t2.result.1, .ok v) := Prod.ext rfl hok
    obtain ⟨o', ho', hauth⟩ := C29_used_entries_are_authenticated hon.start hi hu
    rw [hue, ho] at ho'; cases ho'
    rcases hauth with hsrc' | hauth
    · rw [hsrc] at hsrc'; cases hsrc'
    obtain ⟨n1, l1, mx, g1, g2, _⟩ := hauth.expiration
    rw [hnon] at g1; cases g1
    omega

/-! ### the concrete case -/
section Examples
open HostCase

/-- C27: in contract 2, account 9 is matched by the node below the root of its entry, after the root was matched in contract 1. -/
example : Reach env st [entry] s3 ∧ (requireAuth env s3 (.account 9) [4] (fun _ => run env (.ret .void))).2 = .ok () ∧
    (requireAuth env s3 (.account 9) [4] (fun _ => run env (.ret .void))).1.auth.uses =
      { entry := 0, path := [0], addr := .account 9, fn := .call (.contract 2) fnB [4], frames := [1, 0] } :: s3.auth.uses ∧
    s3.auth.uses = [{ entry := 0, path := [], addr := .account 9, fn := .call (.contract 1) fnA [], frames := [0] }] ∧
    s3.auth.ids = [1, 0] := ⟨reach3, rfl, rfl, rfl, rfl⟩

/-- C27: it does not work for other arguments, or a second time. -/
example : (requireAuth env s3 (.account 9) [5] (fun _ => run env (.ret .void))).2 = .error (.host .auth .invalidAction) ∧
    (requireAuth env (requireAuth env s3 (.account 9) [4] (fun _ => run env (.ret .void))).1 (.account 9) [4]
      (fun _ => run env (.ret .void))).2 = .error (.host .auth .invalidAction) := ⟨rfl, rfl⟩

/-- C27: contract 1 is the direct invoker of contract 2. -/
example : (requireAuth env s3 (.contract 1) [4] (fun _ => run env (.ret .void))).2 = .ok () := rfl

/-- C28: the failed call from contract 1 had used the node for contract 2; when it is called again the node is used. -/
example : Reach env st [entry] s2 ∧ (call env s2 2 fnB (run env (bodyB (.fail (.contract 13))))).2 = .error (.contract 13) ∧
    (tryCall env s2 2 fnB (run env (bodyB (.fail (.contract 13))))).2 = .ok (.err (.contract 13)) ∧
    result.1.auth.uses.map (fun u => (u.entry, u.path)) = [(0, [0]), (0, [])] := ⟨reach2, rfl, rfl, by decide⟩

/-- C29: the transaction succeeds and has used the entry of account 9. -/
example : TxStart env st [entry] ∧ result.2 = .ok (.other 8) ∧ ∃ u ∈ result.1.auth.uses, u.entry = 0 := ⟨start, rfl, by decide⟩

/-- C29: the nonce 5 of account 9, which expired after ledger 300, is consumed again in ledger 301. -/
example : (∃ L, History ([] ++ (100, some tx1) :: ([] ++ (301, some tx2) :: [])) ledger0 L) ∧ tx1.Consumes 0 (.account 9) 5 300 ∧
    tx2.Consumes 0 (.account 9) 5 400 := ⟨history, consumes1, consumes2⟩

/-- C29: with the nonce in the ledger, the transaction fails. -/
example : (invoke env (Host.init { st with map := (st.map.insert (.nonce (.account 9) 5) (some (.void, some 300))) } [entry]) tx).2 =
    .error (.host .auth .existingValue) := rfl

end Examples
end Soroban.Props
