import Verif.Lemmas.HostView
import Verif.Lemmas.HostReach
import Verif.Lemmas.HostAuthExact
import Verif.Spec.HostSerial
/-! What each host function does to the data of a contract, for C98. -/
namespace Soroban.Host
open Soroban Soroban.Auth Soroban.Host.Spec
open Soroban.Storage Soroban.Storage.Spec

/-! ### the values of data entries -/

/-- All data entries have the same values. -/
def DV (L L' : Ledger LKey LVal) : Prop := ∀ a k d, (L' (.data a k d)).map Prod.fst = (L (.data a k d)).map Prod.fst

theorem DV.refl (L : Ledger LKey LVal) : DV L L := fun _ _ _ => rfl
theorem DV.of_eq {L L' : Ledger LKey LVal} (h : L' = L) : DV L L' := by subst h; exact DV.refl _
theorem DV.trans {L L' L'' : Ledger LKey LVal} (h : DV L L') (h' : DV L' L'') : DV L L'' :=
  fun a k d => (h' a k d).trans (h a k d)

/-- The host has the same data values after. -/
def HDV (E : HEnv) (s s' : Host) : Prop := DV (ledger E s.st) (ledger E s'.st)

theorem putOpt_dv {E : HEnv} {s : Host} (h : StOk E s.st) {k : LKey} {e : Option (Entry LVal)} (he : LiveEntry E.sto k e)
    (hk : ∀ a x d, k ≠ .data a x d) : HDV E s (liftSt s (fun st => putOpt E.sto st k e)).1 := by
  show DV (ledger E s.st) (ledger E (putOpt E.sto s.st k e).1)
  rcases putOpt_ledger h he with ⟨_, hL⟩ | ⟨_, hL⟩
  · rw [hL]
    intro a x d
    unfold Ledger.set
    rw [if_neg (fun he => hk a x d he.symm)]
  · exact DV.of_eq hL

theorem extend_dv {E : HEnv} {p : LKey → Access → Bool} {L : Ledger LKey LVal} {k : LKey} {f : Entry LVal → Res (Entry LVal)}
    (hf : ∀ e e', f e = .ok e' → e'.1 = e.1) : DV L (Storage.orElse L (extendAt E.sto p L k f)) := by
  cases hx : extendAt E.sto p L k f with
  | error e => exact DV.refl _
  | ok L' =>
    show DV L L'
    unfold extendAt at hx
    split at hx
    · cases hx
    · rename_i e he
      split at hx
      · cases hx
      · rename_i e' he'
        cases hx
        intro a x d
        unfold Ledger.set
        by_cases hk : LKey.data a x d = k
        · rw [if_pos hk, hk, (getAt_ok he).1]
          simp only [Option.map_some]
          rw [hf e e' he']
        · rw [if_neg hk]

theorem extendTtl_dv {E : HEnv} {s : Host} (h : StOk E s.st) (k : LKey) (t x : Nat) :
    HDV E s (liftSt s (fun st => extendTtl E.sto st k t x)).1 := by
  show DV (ledger E s.st) (ledger E (extendTtl E.sto s.st k t x).1)
  by_cases htx : t > x
  · have : extendTtl E.sto s.st k t x = (s.st, .error (.host .storage .invalidInput)) := by unfold extendTtl; rw [if_pos htx]
    rw [this]; exact DV.refl _
  · obtain ⟨s', hm, hp, _⟩ := extendTtl_spec h.mode h.map k t x htx
    rw [hp, show ledger E s' = _ from hm.abs]
    exact extend_dv (fun e e' he => (extended_longer he).1)

theorem extendTtlV2_dv {E : HEnv} {s : Host} (h : StOk E s.st) (k : LKey) (x a b : Nat) :
    HDV E s (liftSt s (fun st => extendTtlV2 E.sto st k x a b)).1 := by
  show DV (ledger E s.st) (ledger E (extendTtlV2 E.sto s.st k x a b).1)
  by_cases hab : b < a
  · have : extendTtlV2 E.sto s.st k x a b = (s.st, .error (.host .storage .invalidInput)) := by unfold extendTtlV2; rw [if_pos hab]
    rw [this]; exact DV.refl _
  · obtain ⟨s', hm, hp, _⟩ := extendTtlV2_spec h.mode h.map k x a b hab
    rw [hp, show ledger E s' = _ from hm.abs]
    exact extend_dv (fun e e' he => (extendedV2_longer he).1)

theorem OnlyRead.dv {E : HEnv} {s s' : Host} (h : OnlyRead E s s') : HDV E s s' := DV.of_eq h.ledger

theorem storeInstance_dv {E : HEnv} {s : Host} (h : StOk E s.st) (ex : Option Exec) (m : Option (FMap Nat Nat)) (c : Nat) :
    HDV E s (storeInstance E s ex m c).1 := by
  have h1 := has_read (E := E) h (.inst c)
  unfold storeInstance
  split
  · rename_i heq; rw [heq] at h1; exact h1.dv
  · rename_i s1 heq
    rw [heq] at h1
    have h2 := getEntry_read (E := E) h1.ok (.inst c)
    split
    · rename_i heq2; rw [heq2] at h2; exact h1.dv.trans h2.dv
    · rename_i s2 v l heq2
      have hlive : LiveEntry E.sto (.inst c) (some (v, l)) := by
        apply getEntry_live h1.ok
        have := congrArg Prod.snd heq2
        exact this
      rw [heq2] at h2
      split
      · exact h1.dv.trans h2.dv
      · rename_i v' hv'
        have hl' : LiveEntry E.sto (.inst c) (some (v', l)) := by
          intro v' l' d hv hd
          simp only [Option.some.injEq, Prod.mk.injEq] at hv
          exact hlive v l' d (by rw [hv.2]) hd
        exact (h1.dv.trans h2.dv).trans (putOpt_dv h2.ok hl' (fun _ _ _ hk => by cases hk))
  · rename_i s1 heq
    rw [heq] at h1
    split
    · exact h1.dv
    · split
      · exact h1.dv
      · rename_i ex _ l hl
        exact h1.dv.trans (putOpt_dv h1.ok (newLive_live hl _) (fun _ _ _ hk => by cases hk))

theorem persist_dv {E : HEnv} {s : Host} (h : StOk E s.st) : HDV E s (persist E s).1 := by
  unfold persist
  split
  · exact DV.refl _
  · split
    · rename_i m _
      split
      · exact DV.refl _
      · rename_i id _
        have h1 := storeInstance_dv (E := E) h none (some m) id
        split
        · rename_i heq; rw [heq] at h1; exact h1
        · rename_i heq; rw [heq] at h1; exact h1
    · exact DV.refl _

theorem verifyExists_read {E : HEnv} {s : Host} (h : StOk E s.st) (k : LKey) : OnlyRead E s (verifyExists E s k).1 := by
  have h1 := has_read (E := E) h k
  unfold verifyExists
  split
  all_goals (rename_i heq; rw [heq] at h1; exact h1)

theorem verifyExec_read {E : HEnv} {s : Host} (h : StOk E s.st) (ex : Exec) : OnlyRead E s (verifyExec E s ex).1 := by
  cases ex with
  | asset => exact OnlyRead.refl h
  | wasm c => exact verifyExists_read h _
  | ref o t => exact verifyExists_read h _

theorem createWithId_dv {E : HEnv} {s : Host} (h : StOk E s.st) (id : Nat) (ex : Exec) : HDV E s (createWithId E s id ex).1 := by
  have h1 := has_read (E := E) h (.inst id)
  unfold createWithId
  split
  · rename_i heq; rw [heq] at h1; exact h1.dv
  · rename_i heq; rw [heq] at h1; exact h1.dv
  · rename_i s1 heq
    rw [heq] at h1
    have h2 := verifyExec_read (E := E) h1.ok ex
    split
    · rename_i heq2; rw [heq2] at h2; exact h1.dv.trans h2.dv
    · rename_i heq2; rw [heq2] at h2; exact (h1.dv.trans h2.dv).trans (storeInstance_dv h2.ok _ _ _)

theorem supportsCtor_read {E : HEnv} {s : Host} (h : StOk E s.st) (id : Nat) : OnlyRead E s (supportsCtor E s id).1 := by
  have h1 := getInstance_read (E := E) h id
  unfold supportsCtor
  split
  · rename_i heq; rw [heq] at h1; exact h1
  · rename_i s1 ex m heq
    rw [heq] at h1
    have h2 := wasmHash_read (E := E) h1.ok ex
    split
    · rename_i heq2; rw [heq2] at h2; exact h1.trans h2
    · rename_i heq2; rw [heq2] at h2; exact h1.trans h2
    · rename_i s2 c heq2
      rw [heq2] at h2
      have h3 := loadCode_read (E := E) h2.ok c
      split
      all_goals (rename_i heq3; rw [heq3] at h3; exact (h1.trans h2).trans h3)

theorem updateExec_dv {E : HEnv} {s : Host} (h : StOk E s.st) (ex : Exec) : HDV E s (updateExec E s ex).1 := by
  have h1 := verifyExec_read (E := E) h ex
  unfold updateExec
  split
  · rename_i heq; rw [heq] at h1; exact h1.dv
  · rename_i s1 heq
    rw [heq] at h1
    split
    · exact h1.dv
    · rename_i id _
      have h2 := getInstance_read (E := E) h1.ok id
      split
      · rename_i heq2; rw [heq2] at h2; exact h1.dv.trans h2.dv
      · rename_i s2 old heq2
        rw [heq2] at h2
        exact (h1.dv.trans h2.dv).trans (storeInstance_dv (s := recordEvent s2 ⟨id, .updated old.1 ex⟩) h2.ok _ _ _)

theorem uploadWasm_dv {E : HEnv} {s : Host} (h : StOk E s.st) (c w : Nat) : HDV E s (uploadWasm E s c w).1 := by
  have h1 := has_read (E := E) h (.code c)
  unfold uploadWasm
  split
  · rename_i heq; rw [heq] at h1; exact h1.dv
  · rename_i s1 heq
    rw [heq] at h1
    have h2 := getEntry_read (E := E) h1.ok (.code c)
    split
    · rename_i heq2; rw [heq2] at h2; exact h1.dv.trans h2.dv
    · rename_i heq2
      rw [heq2] at h2
      split
      · exact h1.dv.trans h2.dv
      · split
        · exact h1.dv.trans h2.dv
        · rename_i l hl
          exact (h1.dv.trans h2.dv).trans (putOpt_dv h2.ok (newLive_live hl _) (fun _ _ _ hk => by cases hk))
  · rename_i s1 heq
    rw [heq] at h1
    split
    · exact h1.dv
    · rename_i l hl
      exact h1.dv.trans (putOpt_dv h1.ok (newLive_live hl _) (fun _ _ _ hk => by cases hk))

theorem extendKey_dv {E : HEnv} {s : Host} (h : StOk E s.st) (k : LKey) (x : Ext) : HDV E s (extendKey E s k x).1 := by
  cases x with
  | upTo t e => exact extendTtl_dv h _ _ _
  | between e a b => exact extendTtlV2_dv h _ _ _ _

theorem extendCode_dv {E : HEnv} {s : Host} (h : StOk E s.st) (c : Nat) (x : Ext) : HDV E s (extendCode E s c x).1 := by
  have h1 := getInstance_read (E := E) h c
  unfold extendCode
  split
  · rename_i heq; rw [heq] at h1; exact h1.dv
  · rename_i heq; rw [heq] at h1; exact h1.dv.trans (extendKey_dv h1.ok _ x)
  · rename_i heq; rw [heq] at h1; exact h1.dv
  · rename_i s1 o t _ heq
    rw [heq] at h1
    have h2 := extendKey_dv (E := E) h1.ok (.data o (.tag t) .persistent) x
    have h2' := extendKey_only (E := E) h1.ok (shared_tag o t) x
    split
    · rename_i heq2; rw [heq2] at h2; exact h1.dv.trans h2
    · rename_i s2 heq2
      rw [heq2] at h2 h2'
      have h3 := resolveRef_read (E := E) h2'.ok o t
      split
      · rename_i heq3; rw [heq3] at h3; exact (h1.dv.trans h2).trans h3.dv
      · rename_i heq3; rw [heq3] at h3; exact ((h1.dv.trans h2).trans h3.dv).trans (extendKey_dv h3.ok _ x)

theorem extendContract_dv {E : HEnv} {s : Host} (h : StOk E s.st) (c : Nat) (scope : Scope) (x : Ext) :
    HDV E s (extendContract E s c scope x).1 := by
  cases scope with
  | inst => exact extendKey_dv h _ x
  | code => exact extendCode_dv h c x
  | both =>
    cases x with
    | upTo t e =>
      simp only [extendContract]
      have h1 := extendKey_dv (E := E) h (.inst c) (.upTo t e)
      have h1' := extendKey_only (E := E) h (shared_inst c) (.upTo t e)
      split
      · rename_i heq; rw [heq] at h1; exact h1
      · rename_i heq; rw [heq] at h1 h1'; exact h1.trans (extendCode_dv h1'.ok c _)
    | between e a b =>
      simp only [extendContract]
      have h1 := extendCode_dv (E := E) h c (.between e a b)
      have h1' := extendCode_only (E := E) h c (.between e a b)
      split
      · rename_i heq; rw [heq] at h1; exact h1
      · rename_i heq; rw [heq] at h1 h1'; exact h1.trans (extendKey_dv h1'.ok _ _)

theorem validatePut_read {E : HEnv} {s : Host} (h : StOk E s.st) (k : DKey) (v : Nat) (d : Durability) :
    OnlyRead E s (validatePut E s k v d).1 := by
  unfold validatePut
  split
  · exact OnlyRead.refl h
  · split
    · split
      · exact OnlyRead.refl h
      · exact verifyExists_read h _
    · exact OnlyRead.refl h

theorem verifyNonce_dv {E : HEnv} {s : Host} (h : StOk E s.st) (t : Acct) : HDV E s (verifyNonce E s t).1 := by
  unfold verifyNonce
  split
  · exact DV.refl _
  · split
    · exact DV.refl _
    · rename_i n l _
      split
      · exact DV.refl _
      · split
        · exact DV.refl _
        · split
          · exact DV.refl _
          · unfold consumeNonce
            split
            · exact DV.refl _
            · rename_i m hm
              have h1 := has_read (E := E) h (.nonce t.addr n)
              split
              · rename_i heq; rw [heq] at h1; exact h1.dv
              · rename_i heq; rw [heq] at h1; exact h1.dv
              · rename_i heq
                rw [heq] at h1
                refine h1.dv.trans (putOpt_dv h1.ok ?_ (fun _ _ _ hk => by cases hk))
                intro v l' d hv _
                cases hv
                exact ⟨_, rfl, Nat.le_trans (by omega) (Nat.le_max_left _ _)⟩

/-! ### frames -/

theorem finish_dv {E : HEnv} {s : Host} (h : StOk E s.st) (r : Res RVal) : HDV E s (finish E s r).1 := by
  have h1 := persist_dv (E := E) h
  have h1' := persist_only (E := E) h
  unfold finish
  split
  · exact DV.refl _
  · split
    · rename_i heq; rw [heq] at h1; exact h1
    · rename_i heq; rw [heq] at h1; exact h1
    · rename_i s1 heq
      rw [heq] at h1 h1'
      have h2 : HDV E s1 (reload E s1).1 := by
        unfold reload
        split
        · exact DV.refl _
        · rename_i d cs _
          split
          · exact DV.refl _
          · rename_i id _
            have hl := (reloadBelow_coh.reloadBelow_ledger (E := E) h1'.ok id cs).2
            split
            · rename_i heq3; rw [heq3] at hl; exact DV.of_eq hl
            · rename_i heq3; rw [heq3] at hl; exact DV.of_eq hl
      split
      · rename_i heq2; rw [heq2] at h2; exact h1.trans h2
      · rename_i heq2; rw [heq2] at h2; exact h1.trans h2

theorem withFrame_dv {E : HEnv} {s s' : Host} {c : Ctx} {f : Host → Host × Res RVal} {v : RVal}
    (hw : withFrame E s c f = (s', .ok v)) (hok : StOk E (f (pushContext s c).1).1.st) : HDV E (f (pushContext s c).1).1 s' := by
  unfold withFrame at hw
  by_cases hd : s.ctx.length ≥ depthLimit
  · rw [if_pos hd] at hw; cases hw
  rw [if_neg hd] at hw
  simp only at hw
  generalize f (pushContext s c).1 = b at hw hok
  generalize (pushContext s c).2 = rp at hw
  obtain ⟨b, rb⟩ := b
  simp only at hw hok ⊢
  have hfd := finish_dv (E := E) hok (escalate rb)
  rcases hfin : finish E b (escalate rb) with ⟨s2, r2⟩
  rw [hfin] at hw hfd
  simp only at hw
  have hr2 : r2 = .ok v := by
    revert hw
    generalize popContext s2 (rollbackIf r2 rp) = q
    obtain ⟨q, rq⟩ := q
    cases rq with
    | error e => intro h; cases h
    | ok u =>
      simp only
      split
      · intro h; cases h
      · intro h; cases h; rfl
  subst hr2
  have hq : popContext s2 (rollbackIf (.ok v) rp) = (s', .ok ()) := by
    revert hw
    generalize popContext s2 (rollbackIf (.ok v) rp) = q
    obtain ⟨q, rq⟩ := q
    cases rq with
    | error e => intro h; cases h
    | ok u =>
      simp only
      split
      · intro h; cases h
      · intro h; cases h; rfl
  unfold popContext at hq
  cases hx : s2.ctx with
  | nil => rw [hx] at hq; cases hq
  | cons d2 cs2 => rw [hx] at hq; simp only [rollbackIf, Mgr.pop] at hq; cases hq; exact hfd

/-! ### what a contract sees -/

/-- What a storage can read. -/
def perm (s : Host) (k : LKey) : Bool := permOf s.st.mode s.st.footprint k .readOnly

theorem declared_eq (s : Host) (k : LKey) : declared s k = perm s k := by
  unfold declared perm permOf
  cases s.st.mode <;> rfl

/-- Contract `c` has a frame on the stack. -/
def OnStack (c : Nat) (s : Host) : Prop := ∃ d ∈ s.ctx, d.cid = some c

theorem onStack_same {c : Nat} {s s' : Host} (h : List.Forall₂ CSame s.ctx s'.ctx) : OnStack c s' ↔ OnStack c s := by
  have hx : ∀ x : Host, OnStack c x ↔ c ∈ x.ctx.filterMap Ctx.cid := fun x => by rw [List.mem_filterMap]; rfl
  rw [hx, hx, cids_same h]

theorem onStack_frames {c : Nat} {s : Host} : ¬ OnStack c s ↔ framesOf c s.ctx = [] := by
  unfold OnStack framesOf
  rw [List.filter_eq_nil_iff]
  constructor
  · intro h d hd hc; exact h ⟨d, hd, by simpa using hc⟩
  · rintro h ⟨d, hd, hc⟩; exact h d hd (by rw [hc]; simp)

theorem view_none {E : HEnv} {c : Nat} {s : Host} : instView E s c = none ↔ ¬ OnStack c s ∧ instOf (ledger E s.st) c = none := by
  rw [onStack_frames, instView_eq]
  unfold viewOf instOf
  cases framesOf c s.ctx with
  | nil => exact ⟨fun h => ⟨rfl, h⟩, fun h => h.2⟩
  | cons f fs => exact ⟨fun h => (by cases h), fun h => (by cases h.1)⟩

/-- Contract `c` does not exist. -/
def Absent (E : HEnv) (c : Nat) (s : Host) : Prop := ¬ OnStack c s ∧ ledger E s.st (.inst c) = none

/-- The transaction sees contract `c`, or cannot see it, or (if this is allowed, `N`) it does not exist, also not in `B`. -/
def Here (E : HEnv) (B : Ledger LKey LVal) (N : Prop) (c : Nat) (s : Host) : Prop :=
  (instView E s c).isSome = true ∨ (instView E s c = none ∧ perm s (.inst c) = false) ∨ (N ∧ Absent E c s ∧ instOf B c = none)

/-- Contract `c` is still there, or may have been created, with the same data. -/
structure Sees (E : HEnv) (c : Nat) (s s' : Host) : Prop where
  exist : ∀ {B N}, Here E B N c s → Here E B N c s'
  same : ∀ {B N}, Here E B N c s → own E B s' c = own E B s c

/-- If contract `c` does not exist, it does not exist or is new. -/
def Born (E : HEnv) (c : Nat) (s s' : Host) : Prop :=
  ledger E s.st (.inst c) = none → ¬ OnStack c s →
    ledger E s'.st (.inst c) = none ∨ ∃ ex l, ledger E s'.st (.inst c) = some (.inst ex [], l)

theorem absent_view {E : HEnv} {c : Nat} {s : Host} (h : Absent E c s) : instView E s c = none :=
  view_none.mpr ⟨h.1, by unfold instOf; rw [h.2]⟩

theorem sees_mk {E : HEnv} {s s' : Host} {c : Nat} (hu : ∀ m, instView E s c = some m → instView E s' c = some m)
    (hd : ∀ k d, (ledger E s'.st (.data (.contract c) k d)).map Prod.fst = (ledger E s.st (.data (.contract c) k d)).map Prod.fst)
    (hp : perm s' = perm s) (hn : perm s (.inst c) = false → instView E s c = none → instView E s' c = none)
    (hs : Absent E c s → ¬ OnStack c s') (hb : Born E c s s') : Sees E c s s' := by
  have key : ∀ B, (∀ k, ((instView E s' c).or (instOf B c)).bind (fun m => m.get k) = ((instView E s c).or (instOf B c)).bind (fun m => m.get k)) →
      own E B s' c = own E B s c := by
    intro B hv
    unfold own
    congr 1
    · funext k d
      rw [declared_eq, declared_eq, hp]
      cases perm s (.data (.contract c) k d) with
      | true => rw [if_pos rfl, if_pos rfl]; exact hd k d
      | false => rfl
    · funext k; exact hv k
  have hnew : Absent E c s → Absent E c s' ∨ instView E s' c = some [] := by
    intro h
    rcases hb h.2 h.1 with h1 | ⟨ex, l, h1⟩
    · exact Or.inl ⟨hs h, h1⟩
    · right
      rw [instView_eq]
      unfold viewOf
      rw [onStack_frames.mp (hs h)]
      simp only [h1]
  constructor
  · rintro B N (h | ⟨h1, h2⟩ | ⟨h1, h2, h3⟩)
    · obtain ⟨m, hm⟩ := Option.isSome_iff_exists.mp h
      exact Or.inl (by rw [hu m hm]; rfl)
    · exact Or.inr (Or.inl ⟨hn h2 h1, by rw [hp]; exact h2⟩)
    · rcases hnew h2 with h | h
      · exact Or.inr (Or.inr ⟨h1, h, h3⟩)
      · exact Or.inl (by rw [h]; rfl)
  · rintro B N (h | ⟨h1, h2⟩ | ⟨h1, h2, h3⟩)
    · obtain ⟨m, hm⟩ := Option.isSome_iff_exists.mp h
      exact key B (fun k => by rw [hm, hu m hm])
    · exact key B (fun k => by rw [h1, hn h2 h1])
    · refine key B (fun k => ?_)
      rw [absent_view h2, h3]
      rcases hnew h2 with h | h
      · rw [absent_view h]
      · rw [h]; rfl

theorem top_onStack {c : Nat} {s : Host} (h : topContract s.ctx = some c) : OnStack c s := by
  unfold topContract at h
  have hm : c ∈ s.ctx.filterMap Ctx.cid := List.mem_of_mem_head? (by rw [h]; rfl)
  obtain ⟨d, hd, hc⟩ := List.mem_filterMap.mp hm
  exact ⟨d, hd, hc⟩

theorem born_only {E : HEnv} {s s' : Host} (h : OnlySt0 E s s') (c : Nat) : Born E c s s' :=
  fun hn hs => (h.iso c (fun ht => hs (top_onStack ht))).none hn

theorem Born.trans {E : HEnv} {c : Nat} {a b d : Host} (h1 : Born E c a b) (hs : ¬ OnStack c a → ¬ OnStack c b)
    (hu : ∀ m, instView E b c = some m → instView E d c = some m) (hd : ¬ OnStack c a → ¬ OnStack c d) (h2 : Born E c b d) : Born E c a d := by
  intro hn ho
  rcases h1 hn ho with h | ⟨ex, l, h⟩
  · exact h2 h (hs ho)
  · right
    have hv : instView E b c = some [] := by
      rw [instView_eq]; unfold viewOf; rw [onStack_frames.mp (hs ho)]; simp only [h]
    have := hu _ hv
    rw [instView_eq] at this
    unfold viewOf at this
    rw [onStack_frames.mp (hd ho)] at this
    simp only at this
    split at this
    · rename_i ex' m l' hx; cases this; exact ⟨ex', l', hx⟩
    · cases this

theorem perm_le {E : HEnv} {s s' : Host} (h : SLe E s.st s'.st) : perm s' = perm s := by
  funext k; unfold perm; rw [h.perm]

theorem instOf_le {E : HEnv} {s s' : Host} {c : Nat} (h : SLe E s.st s'.st) (hp : perm s (.inst c) = false) :
    instOf (ledger E s'.st) c = instOf (ledger E s.st) c := by
  unfold instOf
  rw [(h.allowed (.inst c)).1 hp]

/-- Only the storage has changed, and not the values of data. -/
theorem sees_only {E : HEnv} {s s' : Host} (hu : Unchanged E s s') (hd : HDV E s s') (h : OnlySt0 E s s') (c : Nat) : Sees E c s s' := by
  have hc : s'.ctx = s.ctx := by rw [h.rest]
  have hs : ¬ OnStack c s → ¬ OnStack c s' := by
    intro hv ⟨d, hd, hx⟩
    rw [hc] at hd
    exact hv ⟨d, hd, hx⟩
  refine sees_mk (hu c) (fun k d => hd _ _ _) (perm_le h.st) (fun hp hv => ?_) (fun ha => hs ha.1) (born_only h c)
  rw [view_none] at hv ⊢
  exact ⟨hs hv.1, by rw [instOf_le h.st hp]; exact hv.2⟩

theorem sees_le {E : HEnv} {s s' : Host} {c : Nat} (hu : Unchanged E s s') (hd : HDV E s s') (hl : HLe E s s') (hb : Born E c s s') :
    Sees E c s s' := by
  refine sees_mk (hu c) (fun k d => hd _ _ _) (perm_le hl.st) (fun hp hv => ?_) (fun ha => by rw [onStack_same hl.ctx.same]; exact ha.1) hb
  rw [view_none] at hv ⊢
  exact ⟨by rw [onStack_same hl.ctx.same]; exact hv.1, by rw [instOf_le hl.st hp]; exact hv.2⟩

theorem sees_of {E : HEnv} {s s' : Host} (h : OnlySt E s s') (hd : HDV E s s') (c : Nat) : Sees E c s s' :=
  sees_only h.unchanged hd h.toOnlySt0 c

theorem sees_kept {E : HEnv} {s s' : Host} {c : Nat} (h : OnlySt E s s') (hk : Kept c (ledger E s.st) (ledger E s'.st)) :
    Sees E c s s' := by
  have hs : ¬ OnStack c s → ¬ OnStack c s' := by
    intro hv ⟨d, hd, hx⟩
    rw [show s'.ctx = s.ctx from h.ctx] at hd
    exact hv ⟨d, hd, hx⟩
  refine sees_mk (h.unchanged c) (fun k d => ?_) (perm_le h.st) (fun hp hv => ?_) (fun ha => hs ha.1) (born_only h.toOnlySt0 c)
  · cases k with
    | val n => rw [hk.data n d]
    | tag n =>
      rcases hk.tag n d with ⟨h1, h2⟩ | ⟨v, l, l', h1, h2, _⟩
      · rw [h1, h2]
      · rw [h1, h2]; rfl
  · rw [view_none] at hv ⊢
    exact ⟨hs hv.1, by rw [instOf_le h.st hp]; exact hv.2⟩

/-- What is read can be read. -/
theorem getEntry_perm {E : HEnv} {s : Host} (h : StOk E s.st) {k : LKey} {e : Entry LVal} (hr : (getEntry E.sto s.st k).2 = .ok e) :
    perm s k = true := by
  obtain ⟨s', h1, h2, _⟩ := getEntry_spec h.mode h.map k
  rw [h2] at hr
  unfold getAt readAt at hr
  unfold perm
  by_cases hp : permOf s.st.mode s.st.footprint k .readOnly = true
  · exact hp
  · simp only [hp] at hr
    split at hr
    · cases hr
    · rename_i hx
      split at hx <;> cases hx
    · rename_i hx
      split at hx <;> cases hx

theorem has_perm {E : HEnv} {s : Host} (h : StOk E s.st) {k : LKey} {b : Bool} (hr : (Storage.has E.sto s.st k).2 = .ok b) :
    perm s k = true := by
  obtain ⟨s', h1, h2, _⟩ := has_spec h.mode h.map k
  rw [h2] at hr
  unfold readAt at hr
  unfold perm
  by_cases hp : permOf s.st.mode s.st.footprint k .readOnly = true
  · exact hp
  · simp only [hp] at hr
    split at hr
    · rename_i hx
      split at hx <;> cases hx
    · cases hr

theorem loads_perm {E : HEnv} {s s1 : Host} {id : Nat} {inst : FMap Nat Nat} (hs : StOk E s.st) (h : Loads E s id inst s1) :
    perm s (.inst id) = true := by
  have aux : ∀ s1 ex, getInstance E s id = (s1, .ok (ex, inst)) → perm s (.inst id) = true := by
    intro s1 ex hg
    unfold getInstance at hg
    rcases hx : liftSt s (fun st => getEntry E.sto st (.inst id)) with ⟨s2, r⟩
    rw [hx] at hg
    cases r with
    | error e => cases hg
    | ok e => exact getEntry_perm hs (congrArg Prod.snd hx)
  cases h with
  | builtin h1 h2 => exact aux _ _ h1
  | wasm h1 h2 h3 => exact aux _ _ h1

/-- A frame is added for a contract that can be seen. -/
theorem sees_push {E : HEnv} {s s1 : Host} {d : Ctx} {id : Nat} (hrd : OnlyRead E s s1) (hd : d.cid = some id) (hp : perm s (.inst id) = true)
    {e : Entry LVal} (hL : ledger E s.st (.inst id) = some e)
    (hu : Unchanged E s (pushContext s1 d).1) (c : Nat) : Sees E c s (pushContext s1 d).1 := by
  have hst : (pushContext s1 d).1.st = s1.st := rfl
  have hs : id ≠ c → ¬ OnStack c s → ¬ OnStack c (pushContext s1 d).1 := by
    rintro hne hv ⟨x, hx, hxc⟩
    have hx : x ∈ d :: s1.ctx := hx
    rcases List.mem_cons.mp hx with rfl | hx
    · rw [hd] at hxc; cases hxc; exact hne rfl
    · rw [show s1.ctx = s.ctx from hrd.only.ctx] at hx; exact hv ⟨x, hx, hxc⟩
  refine sees_mk (hu c) (fun k x => by rw [hst]; exact hrd.dv _ _ _) (by unfold perm; rw [hst]; exact perm_le hrd.only.st) (fun hpc hv => ?_)
    (fun ha => hs (by rintro rfl; rw [ha.2] at hL; cases hL) ha.1) (fun hn _ => Or.inl (by rw [hst, hrd.ledger]; exact hn))
  have hne : id ≠ c := by rintro rfl; rw [hp] at hpc; cases hpc
  rw [view_none] at hv ⊢
  exact ⟨hs hne hv.1, by rw [hst, hrd.ledger]; exact hv.2⟩

theorem finish_born {E : HEnv} {s : Host} (h : StOk E s.st) (r : Res RVal) (c : Nat) : Born E c s (finish E s r).1 := by
  have h1' := persist_only (E := E) h
  unfold finish
  split
  · exact fun hn _ => Or.inl hn
  · split
    · rename_i heq; rw [heq] at h1'; exact born_only h1' c
    · rename_i heq; rw [heq] at h1'; exact born_only h1' c
    · rename_i s1 heq
      rw [heq] at h1'
      have h2 : ledger E (reload E s1).1.st = ledger E s1.st := by
        unfold reload
        split
        · rfl
        · rename_i d cs _
          split
          · rfl
          · rename_i id _
            have hl := (reloadBelow_coh.reloadBelow_ledger (E := E) h1'.ok id cs).2
            split
            · rename_i heq3; rw [heq3] at hl; exact hl
            · rename_i heq3; rw [heq3] at hl; exact hl
      have hb := born_only h1' c
      split
      · rename_i heq2; rw [heq2] at h2; unfold Born; rw [show ledger E _ = _ from h2]; exact hb
      · rename_i heq2; rw [heq2] at h2; unfold Born; rw [show ledger E _ = _ from h2]; exact hb

/-- The end of a frame creates nothing. -/
theorem withFrame_born {E : HEnv} {s s' : Host} {c : Ctx} {f : Host → Host × Res RVal} {v : RVal}
    (hw : withFrame E s c f = (s', .ok v)) (hok : StOk E (f (pushContext s c).1).1.st) (x : Nat) : Born E x (f (pushContext s c).1).1 s' := by
  unfold withFrame at hw
  by_cases hd : s.ctx.length ≥ depthLimit
  · rw [if_pos hd] at hw; cases hw
  rw [if_neg hd] at hw
  simp only at hw
  generalize f (pushContext s c).1 = b at hw hok
  generalize (pushContext s c).2 = rp at hw
  obtain ⟨b, rb⟩ := b
  simp only at hw hok ⊢
  have hfd := finish_born (E := E) hok (escalate rb) x
  rcases hfin : finish E b (escalate rb) with ⟨s2, r2⟩
  rw [hfin] at hw hfd
  simp only at hw
  have hr2 : r2 = .ok v := by
    revert hw
    generalize popContext s2 (rollbackIf r2 rp) = q
    obtain ⟨q, rq⟩ := q
    cases rq with
    | error e => intro h; cases h
    | ok u =>
      simp only
      split
      · intro h; cases h
      · intro h; cases h; rfl
  subst hr2
  have hq : popContext s2 (rollbackIf (.ok v) rp) = (s', .ok ()) := by
    revert hw
    generalize popContext s2 (rollbackIf (.ok v) rp) = q
    obtain ⟨q, rq⟩ := q
    cases rq with
    | error e => intro h; cases h
    | ok u =>
      simp only
      split
      · intro h; cases h
      · intro h; cases h; rfl
  unfold popContext at hq
  cases hx : s2.ctx with
  | nil => rw [hx] at hq; cases hq
  | cons d2 cs2 => rw [hx] at hq; simp only [rollbackIf, Mgr.pop] at hq; cases hq; exact hfd

/-- The end of a frame. -/
theorem sees_end {E : HEnv} {s sp b s' : Host} (h1 : SLe E s.st sp.st) (h2 : SLe E sp.st b.st) (h3 : SLe E s.st s'.st)
    (hcb : List.Forall₂ CSame sp.ctx b.ctx) (hc : List.Forall₂ CSame s.ctx s'.ctx) (hsp : ∃ d, sp.ctx = d :: s.ctx)
    (hu : Unchanged E b s') (hd : HDV E b s') (hb : ∀ c, Born E c b s') (c : Nat) : Sees E c b s' := by
  have p1 : perm b = perm s := (perm_le h2).trans (perm_le h1)
  obtain ⟨d, hsp⟩ := hsp
  have hs : ¬ OnStack c b → ¬ OnStack c s' := by
    intro hv
    rw [onStack_same hc]
    intro ⟨x, hx, hxc⟩
    exact hv ((onStack_same hcb).mpr ⟨x, by rw [hsp]; exact List.mem_cons_of_mem _ hx, hxc⟩)
  refine sees_mk (hu c) (fun k x => hd _ _ _) ((perm_le h3).trans p1.symm) (fun hpc hv => ?_) (fun ha => hs ha.1) (hb c)
  rw [p1] at hpc
  rw [view_none] at hv ⊢
  refine ⟨hs hv.1, ?_⟩
  rw [instOf_le h3 hpc, ← instOf_le h1 hpc, ← instOf_le h2 (by rw [perm_le h1]; exact hpc)]
  exact hv.2

theorem Sees.refl (E : HEnv) (c : Nat) (s : Host) : Sees E c s s := ⟨fun h => h, fun _ => rfl⟩
theorem Sees.trans {E : HEnv} {c : Nat} {s s' s'' : Host} (h : Sees E c s s') (h' : Sees E c s' s'') : Sees E c s s'' :=
  ⟨fun hx => h'.exist (h.exist hx), fun hx => (h'.same (h.exist hx)).trans (h.same hx)⟩

/-- States in which the invariants of the host hold. -/
structure Apt (E : HEnv) (orig : List Acct) (L0 : Ledger LKey LVal) (s : Host) : Prop where
  ok : HOk E orig s
  strong : HStrong E L0 s

theorem Apt.next {α : Type} {E : HEnv} {orig : List Acct} {L0 : Ledger LKey LVal} {s s' : Host} {v : α} (h : Apt E orig L0 s)
    (hg : Good E orig s (s', Except.ok v)) : Apt E orig L0 s' := ⟨hg.ok, hg.strong h.strong ⟨v, rfl⟩⟩

/-- A successful call: the frame is entered with the data as it is, and left with the data as the code has left it. -/
theorem call_enters {E : HEnv} {orig : List Acct} {L0 : Ledger LKey LVal} {s s' : Host} (hf : Apt E orig L0 s) {id : Nat} {fn : Name}
    {internal : Bool} (hfn : internal = true → fn = constructorName) (p : Prog) {v : RVal}
    (hc : callN E s id fn .prohibited internal (run E p) = (s', .ok v)) :
    ∃ sp b w d, Apt E orig L0 sp ∧ sp.ctx = d :: s.ctx ∧ d.cid = some id ∧ run E p sp = (b, .ok w) ∧ (∀ x ∈ s.ctx, x.cid ≠ some id) ∧
      (∀ c, Sees E c s sp) ∧ ∀ c, Sees E c b s' := by
  have hgs := (callN_prohibited hf.ok (id := id) (fn := fn) (internal := internal) (fun h => Or.inr (hfn h)) (run_good (E := E) p)).good.le
  rw [hc] at hgs
  unfold callN at hc
  by_cases hres : internal = false ∧ reserved fn = true
  · rw [if_pos hres] at hc; cases hc
  rw [if_neg hres] at hc
  simp only at hc
  cases hd : reentryDistance id s.ctx with
  | some n => rw [hd] at hc; cases hc
  | none =>
    rw [hd] at hc
    simp only at hc
    obtain ⟨s1, inst, hl, hw⟩ := callContractFn_loads hc
    have hrd := loads_read hf.ok.st hl
    have hn := reentry_none hd
    have hlim : s.ctx.length < depthLimit := by
      by_contra hx
      unfold withFrame at hw
      rw [hrd.only.ctx, if_pos (by omega)] at hw; cases hw
    have hf1 : Apt E orig L0 s1 := hf.next (hrd.only.good hf.ok (.ok ()))
    obtain ⟨ex, l, hL⟩ := loads_inst hf.ok.st hl
    have hcl : Clean inst (framesOf id s1.ctx) := by rw [hrd.only.ctx, framesOf_nil hn]; trivial
    have hsp : Apt E orig L0 (pushContext s1 { cid := some id, fn := fn, inst := inst, storage := none }).1 := by
      have hco := callOk_new (fn := fn) hf.ok.stack hn (fun hx => by
        cases hi : internal with
        | true => exact Or.inr (hfn hi)
        | false => exact absurd ⟨hi, hx⟩ hres)
      refine ⟨push_hok (id := id) hf1.ok ?_ (by rw [hrd.only.ctx]; exact hlim), push_strong hf1.strong _ ?_⟩
      · rw [hrd.only.ctx]; exact ⟨rfl, hco.stack, hco.scope⟩
      · exact hf1.strong.coh.push rfl (by rw [hrd.ledger]; exact hL) rfl rfl hcl
    have hg := run_good (E := E) p _ hsp.ok
    have hne : (run E p (pushContext s1 { cid := some id, fn := fn, inst := inst, storage := none }).1).1.ctx ≠ [] := by
      intro hx
      have := hg.le.ctx.same.length_eq
      rw [hx] at this; cases this
    obtain ⟨_, ⟨w, hw2⟩, hun⟩ := withFrame_view hw hg.ok.st (fun hv => (hg.strong hsp.strong hv).coh) hne
    refine ⟨_, _, w, _, hsp, by show _ :: s1.ctx = _; rw [hrd.only.ctx], rfl, Prod.ext rfl hw2, hn,
      sees_push hrd rfl (loads_perm hf.ok.st hl) hL (unchangedTrans hrd.only.unchanged (push_view rfl (by rw [hrd.ledger]; exact hL) rfl rfl hcl)),
      sees_end (sp := (pushContext s1 { cid := some id, fn := fn, inst := inst, storage := none }).1) hrd.only.st hg.le.st hgs.st hg.le.ctx.same hgs.ctx.same ⟨_, by show _ :: s1.ctx = _; rw [hrd.only.ctx]⟩
        hun (withFrame_dv hw hg.ok.st) (withFrame_born hw hg.ok.st)⟩

/-- The same for `__check_auth`, of which the contract may be the running one. -/
theorem check_enters {E : HEnv} {orig : List Acct} {L0 : Ledger LKey LVal} {s s' : Host} (hf : Apt E orig L0 s) {id : Nat} (p : Prog) {v : RVal}
    (hc : callN E s id checkAuthName .selfAllowed true (run E p) = (s', .ok v)) :
    ∃ sp b w d, Apt E orig L0 sp ∧ sp.ctx = d :: s.ctx ∧ d.cid = some id ∧ run E p sp = (b, .ok w) ∧
      ((∀ x ∈ s.ctx, x.cid ≠ some id) ∨ topContract s.ctx = some id) ∧ (∀ c, Sees E c s sp) ∧ ∀ c, Sees E c b s' := by
  have hok := hf.ok
  have hst := hf.strong
  have hgs := (callN_self hf.ok (id := id) (run_good (E := E) p)).1.le
  rw [hc] at hgs
  obtain ⟨s1, hc1, hor, hf1, hse1, hle1, hctx1, hcl⟩ : ∃ s1, callContractFn E s1 id checkAuthName (run E p) = (s', .ok v) ∧
      ((∀ x ∈ s.ctx, x.cid ≠ some id) ∨ topContract s.ctx = some id) ∧
      Apt E orig L0 s1 ∧ (∀ c, Sees E c s s1) ∧ SLe E s.st s1.st ∧ s1.ctx = s.ctx ∧
      ∀ ex m l, ledger E s1.st (.inst id) = some (.inst ex m, l) → Clean m (framesOf id s1.ctx) := by
    unfold callN at hc
    rw [if_neg (by simp)] at hc
    simp only at hc
    cases hd : reentryDistance id s.ctx with
    | none =>
      rw [hd] at hc
      have hn := reentry_none hd
      exact ⟨s, hc, Or.inl hn, hf, fun c => Sees.refl E c s, SLe.refl hok.st, rfl, clean_new hn hst.coh⟩
    | some n =>
      rw [hd] at hc
      cases n with
      | succ n => cases hc
      | zero =>
        simp only at hc
        rcases hp : persist E s with ⟨s1, r1⟩
        rw [hp] at hc
        cases r1 with
        | error e => cases hc
        | ok b =>
          have h1 := persist_only (E := E) hok.st
          have hg := persist_good (E := E) hok
          have hdv := persist_dv (E := E) hok.st
          rw [hp] at h1 hg hdv
          have ht := reentry_zero hd
          refine ⟨s1, hc, Or.inr ht, hf.next hg, sees_only (persist_view hok.st hp) hdv h1, h1.st, h1.ctx, fun ex m l hL => ?_⟩
          obtain ⟨d, cs, hcs, hid⟩ := hok.stack.top ht
          have := (hg.strong hst ⟨b, rfl⟩).coh
          rw [h1.ctx] at this
          rw [show s1.ctx = s.ctx from h1.ctx]
          exact persist_top hok.st hp hcs hid this hL
  obtain ⟨s2, inst, hl, hw⟩ := callContractFn_loads hc1
  have hrd := loads_read hf1.ok.st hl
  have hlim : s.ctx.length < depthLimit := by
    by_contra hx
    unfold withFrame at hw
    rw [hrd.only.ctx, hctx1, if_pos (by omega)] at hw; cases hw
  have hf2 : Apt E orig L0 s2 := hf1.next (hrd.only.good hf1.ok (.ok ()))
  obtain ⟨ex, l, hL⟩ := loads_inst hf1.ok.st hl
  have hcl2 : Clean inst (framesOf id s2.ctx) := by rw [hrd.only.ctx]; exact hcl ex inst l hL
  have hsp : Apt E orig L0 (pushContext s2 { cid := some id, fn := checkAuthName, inst := inst, storage := none }).1 := by
    have hco : CallOk id checkAuthName s1.ctx := by
      rw [hctx1]
      rcases hor with hn | ht
      · exact callOk_new hok.stack hn (fun _ => Or.inl rfl)
      · exact callOk_top hok.stack ht
    refine ⟨push_hok (id := id) hf2.ok ?_ (by rw [hrd.only.ctx, hctx1]; exact hlim), push_strong hf2.strong _ ?_⟩
    · rw [hrd.only.ctx]; exact ⟨rfl, hco.stack, hco.scope⟩
    · exact hf2.strong.coh.push rfl (by rw [hrd.ledger]; exact hL) rfl rfl hcl2
  have hg := run_good (E := E) p _ hsp.ok
  have hne : (run E p (pushContext s2 { cid := some id, fn := checkAuthName, inst := inst, storage := none }).1).1.ctx ≠ [] := by
    intro hx
    have := hg.le.ctx.same.length_eq
    rw [hx] at this; cases this
  obtain ⟨_, ⟨w, hw2⟩, hun⟩ := withFrame_view hw hg.ok.st (fun hv => (hg.strong hsp.strong hv).coh) hne
  refine ⟨_, _, w, _, hsp, by show _ :: s2.ctx = _; rw [hrd.only.ctx, hctx1], rfl, Prod.ext rfl hw2, hor,
    fun c => (hse1 c).trans (sees_push hrd rfl (loads_perm hf1.ok.st hl) hL
      (unchangedTrans hrd.only.unchanged (push_view rfl (by rw [hrd.ledger]; exact hL) rfl rfl hcl2)) c),
    sees_end (sp := (pushContext s2 { cid := some id, fn := checkAuthName, inst := inst, storage := none }).1) (hle1.trans hrd.only.st) hg.le.st hgs.st hg.le.ctx.same hgs.ctx.same ⟨_, by show _ :: s2.ctx = _; rw [hrd.only.ctx, hctx1]⟩
      hun (withFrame_dv hw hg.ok.st) (withFrame_born hw hg.ok.st)⟩

end Soroban.Host
