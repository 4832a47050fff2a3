import Verif.Spec.Emulation
import Verif.Lemmas.StorageRec
import Verif.Lemmas.HostCallExact
/-! What the emulated authentication reads. -/
namespace Soroban.Storage
open Soroban
open Soroban.E2e.Spec (archived)
open Soroban.Storage.Spec (runOps OpOk recording SnapshotOk absMap)
variable {K V : Type} [DecidableEq K] {E : Env K V} {src : K → Option (Entry V)} {s : Store K V}

omit [DecidableEq K] in
theorem archived_iff {k : K} : archived E src k = true ↔
    ∃ v l, src k = some (v, some l) ∧ l < E.li.seq ∧ E.keys.durability k = some .persistent := by
  unfold archived
  cases hs : src k with
  | none => simp
  | some p =>
    obtain ⟨v, l⟩ := p
    cases l with
    | none => simp
    | some l => simp

/-- The footprint after a read. -/
theorem tryGet_fp (h : RecInv E src s) (ho : MapOk E s.mode s.footprint s.map) (hm : ModeOk E s.mode) {k : K}
    (hk : E.keys.supported k = true) (k' : K) : (tryGet E s k).1.footprint.get k' =
      if k' = k then some (if archived E src k then .readWrite else (s.footprint.get k).getD .readOnly) else s.footprint.get k' := by
  have hfst : (tryGet E s k).1 = (prepareReadOnly E s k).1 := by
    unfold tryGet
    rw [if_pos hk]
    rcases prepareReadOnly E s k with ⟨s1, e | u⟩
    · rfl
    · dsimp only; split <;> rfl
  rw [hfst]
  unfold prepareReadOnly
  rw [h.mode]
  dsimp only
  cases hg : s.map.get k with
  | some e =>
    have hd := h.decl k (by rw [hg]; rfl)
    have h2 : s.record k .readOnly = s := by unfold Store.record; rw [recordAccess_again hd]
    have h3 : s.load src k = s := by unfold Store.load FMap.contains; rw [hg]; rfl
    rw [h2, h3, h2, handle_live (fun e he => ho.live k e he)]
    dsimp only
    by_cases hkk : k' = k
    · subst hkk
      rw [if_pos rfl]
      obtain ⟨a, ha⟩ := Option.isSome_iff_exists.mp hd
      by_cases hx : archived E src k' = true
      · obtain ⟨v, l, h1, h2, h3⟩ := archived_iff.mp hx
        rw [if_pos hx, h.exp k' v l h1 h2 h3 hd]
      · rw [if_neg hx, ha]; rfl
    · rw [if_neg hkk]
  | none =>
    have e1 : ((s.record k .readOnly).load src k).record k .readOnly =
        { s with footprint := recordAccess s.footprint k .readOnly, map := s.map.insert k (src k) } := by
      have : (s.record k .readOnly).load src k =
          { s with footprint := recordAccess s.footprint k .readOnly, map := s.map.insert k (src k) } := by
        unfold Store.load FMap.contains Store.record; simp only [hg]; rfl
      rw [this]
      unfold Store.record
      simp only [recordAccess_again (show ((recordAccess s.footprint k .readOnly).get k).isSome = true by rw [recordAccess_get]; simp)]
    rw [e1]
    unfold handleMaybeExpired
    dsimp only
    rw [FMap.get_insert_self]
    have hs : ModeOk E (.recording src) := by rw [← h.mode]; exact hm
    cases hsr : src k with
    | none =>
      have hx : archived E src k = false := by unfold archived; rw [hsr]
      dsimp only
      rw [recordAccess_get, hx]; rfl
    | some p =>
      obtain ⟨v, l⟩ := p
      dsimp only
      cases hd : E.keys.durability k with
      | none =>
        have hx : archived E src k = false := by
          by_contra hc
          obtain ⟨_, _, _, _, h3⟩ := archived_iff.mp (by simpa using hc)
          rw [hd] at h3; cases h3
        dsimp only
        rw [recordAccess_get, hx]; rfl
      | some d =>
        cases l with
        | none => exact absurd hd (hs.1.1 k v d hsr)
        | some l =>
          dsimp only
          by_cases hl : l < E.li.seq
          · rw [if_pos hl]
            cases d with
            | temporary =>
              have hx : archived E src k = false := by
                by_contra hc
                obtain ⟨_, _, _, _, h3⟩ := archived_iff.mp (by simpa using hc)
                rw [hd] at h3; cases h3
              dsimp only
              rw [recordAccess_get, hx]; rfl
            | persistent =>
              have hx : archived E src k = true := archived_iff.mpr ⟨v, l, hsr, hl, hd⟩
              dsimp only
              cases hml : E.li.minLiveUntil .persistent with
              | none => have := hs.1.2; rw [hml] at this; cases this
              | some m =>
                dsimp only
                rw [recordAccess_get, hx]
                by_cases hkk : k' = k
                · rw [if_pos hkk, if_pos hkk]; rfl
                · rw [if_neg hkk, if_neg hkk, recordAccess_get, if_neg hkk]
          · rw [if_neg hl]
            have hx : archived E src k = false := by
              by_contra hc
              obtain ⟨v', l', h1, h2, _⟩ := archived_iff.mp (by simpa using hc)
              rw [hsr] at h1
              cases h1
              exact hl h2
            dsimp only
            rw [recordAccess_get, hx]; rfl

/-- All the operations keep the footprint that is recorded as it should be, also for the maps to go back to. -/
structure RecM (E : Env K V) (src : K → Option (Entry V)) (m : Machine K V) : Prop where
  ok : Ok E m
  inv : RecInv E src m.st
  saved : ∀ x ∈ m.saved, ∀ k, (x.get k).isSome = true → (m.st.footprint.get k).isSome = true

theorem step_recM {m : Machine K V} (h : RecM E src m) {o : Op K V} (ho : OpOk E o) : RecM E src (step E m o).1 := by
  have hs := step_ok h.ok ho
  have keep : ∀ x ∈ m.saved, ∀ k, (x.get k).isSome = true → ((step E m o).1.st.footprint.get k).isSome = true :=
    fun x hx k hk => hs.fp k .readOnly (h.saved x hx k hk)
  have w : ∀ {α : Type} (g : α → Out V) (r : Store K V × Res α), RecInv E src r.1 → step E m o = wrap m g r → RecM E src (step E m o).1 := by
    intro α g r hr he
    have h1 : (step E m o).1.st = r.1 := by rw [he]; rfl
    have h2 : (step E m o).1.saved = m.saved := by rw [he]; rfl
    exact ⟨hs.ok, by rw [h1]; exact hr, by rw [h2]; exact keep⟩
  cases o with
  | get k => exact w _ _ (getEntry_rec h.inv k) rfl
  | has k => exact w _ _ (has_rec h.inv k) rfl
  | del k => exact w _ _ (putOpt_rec h.inv k none) rfl
  | put k v l => exact w _ _ (putOpt_rec h.inv k _) rfl
  | write k u => exact w _ _ (write_rec h.inv k u) rfl
  | extend k t x => exact w _ _ (extendTtl_rec h.inv k t x) rfl
  | extendV2 k x a b => exact w _ _ (extendTtlV2_rec h.inv k x a b) rfl
  | mark =>
    refine ⟨hs.ok, h.inv, fun x hx => ?_⟩
    rcases List.mem_cons.mp hx with rfl | hx
    · exact h.inv.decl
    · exact keep x hx
  | commit => exact ⟨hs.ok, h.inv, fun x hx => keep x (List.mem_of_mem_tail hx)⟩
  | abort =>
    have hok := hs.ok
    simp only [step] at hok keep ⊢
    cases hsv : m.saved with
    | nil => exact h
    | cons x rest =>
      rw [hsv] at hok
      exact ⟨hok, ⟨h.inv.mode, h.inv.nodup, h.saved x (by rw [hsv]; simp), h.inv.exp⟩,
        fun y hy => h.saved y (by rw [hsv]; exact List.mem_cons_of_mem _ hy)⟩

theorem runOps_recM : ∀ {os : List (Op K V)} {m : Machine K V}, RecM E src m → (∀ o ∈ os, OpOk E o) → RecM E src (runOps E os m).1
  | [], _, h, _ => h
  | o :: os, _, h, ho => runOps_recM (os := os) (step_recM h (ho o (by simp))) (fun o' h' => ho o' (List.mem_cons_of_mem _ h'))

theorem recording_recM (h : SnapshotOk E src) (hf : E.feature = true) : RecM E src (recording src) := by
  refine ⟨⟨⟨h, hf⟩, ⟨?_, ?_⟩, ?_⟩, start_rec E src, ?_⟩
  · intro k e he; cases he
  · intro he; cases he
  · intro x hx; cases hx
  · intro x hx; cases hx

end Soroban.Storage

namespace Soroban.Host
open Soroban Soroban.Auth Soroban.Host.Spec Soroban.Storage
open Soroban.E2e.Spec (archived)
open Soroban.Storage.Spec (absMap allows readAt getAt Ledger)

variable {E : HEnv} {src : LKey → Option (Entry LVal)}

/-- The storage of a simulation. -/
structure Rs (E : HEnv) (src : LKey → Option (Entry LVal)) (st : Store LKey LVal) : Prop where
  sok : StOk E st
  inv : RecInv E.sto src st

theorem _root_.Soroban.Host.Spec.Simulated.rs {st : Store LKey LVal} (h : Simulated E src st) : Rs E src st := by
  obtain ⟨os, ho, rfl⟩ := h.ops
  have := runOps_recM (recording_recM h.snapshot h.feature) ho
  exact ⟨⟨h.keys, this.ok.mode, this.ok.cur⟩, this.inv⟩

/-- Only the keys `ks` have been read. -/
structure Reads (E : HEnv) (src : LKey → Option (Entry LVal)) (st st' : Store LKey LVal) (ks : List LKey) : Prop where
  rs : Rs E src st'
  seen : seen E st' = seen E st
  fp : ∀ k, st'.footprint.get k =
    if k ∈ ks then some (if archived E.sto src k then .readWrite else (st.footprint.get k).getD .readOnly) else st.footprint.get k

theorem Reads.refl {st : Store LKey LVal} (h : Rs E src st) : Reads E src st st [] := ⟨h, rfl, fun k => by simp⟩

theorem Reads.trans {a b c : Store LKey LVal} {ks ks' : List LKey} (h : Reads E src a b ks) (h' : Reads E src b c ks') :
    Reads E src a c (ks ++ ks') := by
  refine ⟨h'.rs, h'.seen.trans h.seen, fun k => ?_⟩
  rw [h'.fp k, h.fp k]
  by_cases h1 : k ∈ ks' <;> by_cases h2 : k ∈ ks <;> by_cases h3 : archived E.sto src k = true <;>
    simp [h1, h2, h3]

theorem rs_supported {st : Store LKey LVal} (h : Rs E src st) (k : LKey) : E.sto.keys.supported k = true := by rw [h.sok.keys]; rfl

theorem tryGet_reads {st : Store LKey LVal} (h : Rs E src st) (k : LKey) :
    ∃ st', tryGet E.sto st k = (st', .ok (seen E st k)) ∧ Reads E src st st' [k] := by
  obtain ⟨st', hs, he, _⟩ := tryGet_spec h.sok.mode h.sok.map k
  have hfp := tryGet_fp h.inv h.sok.map h.sok.mode (rs_supported h k)
  have hrec := tryGet_rec h.inv k
  have hr : readAt E.sto (permOf st.mode st.footprint) (absMap E.sto st.mode st.map) k = .ok (seen E st k) := by
    unfold readAt
    rw [if_pos (rs_supported h k), if_pos (by rw [h.inv.mode]; rfl)]
    rfl
  rw [hr] at he
  rw [he] at hfp hrec
  refine ⟨st', he, ⟨⟨h.sok.keys, by rw [hs.mode]; exact h.sok.mode, hs.ok⟩, hrec⟩, hs.abs, fun k' => ?_⟩
  rw [hfp k']
  by_cases hk : k' = k <;> simp [hk]

theorem getEntry_fst {st : Store LKey LVal} (k : LKey) : (getEntry E.sto st k).1 = (tryGet E.sto st k).1 := by
  unfold getEntry
  rcases tryGet E.sto st k with ⟨s1, e | o⟩
  · rfl
  · cases o <;> rfl

theorem emulateCode_reads {st : Store LKey LVal} (h : Rs E src st) (n : Nat) :
    ∃ st', emulateCode E st n = (st', .ok ()) ∧ Reads E src st st' [.code n] := by
  obtain ⟨st', h1, h2⟩ := tryGet_reads h (.code n)
  exact ⟨st', by unfold emulateCode; rw [h1], h2⟩

theorem emulateExec_reads {st : Store LKey LVal} (h : Rs E src st) (ex : Exec) :
    ∃ st', emulateExec E st ex = (st', .ok ()) ∧ Reads E src st st' (codeKeys E (seen E st) ex) := by
  cases ex with
  | wasm n => exact emulateCode_reads h n
  | asset => exact ⟨st, rfl, .refl h⟩
  | ref o t =>
    obtain ⟨st1, h1, h2⟩ := tryGet_reads h (.data o (.tag t) .persistent)
    have base : ∀ {p : Option (Entry LVal)}, seen E st (.data o (.tag t) .persistent) = p → (∀ v l, p ≠ some (.data v, l)) →
        codeKeys E (seen E st) (.ref o t) = [.data o (.tag t) .persistent] := by
      intro p hp hn
      unfold codeKeys tagged
      dsimp only
      rw [hp]
      split
      · exact absurd rfl (hn _ _)
      · rfl
    unfold emulateExec
    dsimp only
    rw [h1]
    cases hs : seen E st (.data o (.tag t) .persistent) with
    | none => exact ⟨st1, rfl, by rw [base hs (fun v l h => by cases h)]; exact h2⟩
    | some p =>
      obtain ⟨v, l⟩ := p
      cases v with
      | data v =>
        dsimp only
        cases hh : E.hashOf v with
        | none =>
          have : codeKeys E (seen E st) (.ref o t) = [.data o (.tag t) .persistent] := by
            unfold codeKeys tagged
            dsimp only
            rw [hs]
            dsimp only
            rw [hh]; rfl
          exact ⟨st1, rfl, by rw [this]; exact h2⟩
        | some n =>
          have : codeKeys E (seen E st) (.ref o t) = [.data o (.tag t) .persistent] ++ [.code n] := by
            unfold codeKeys tagged
            dsimp only
            rw [hs]
            dsimp only
            rw [hh]; rfl
          obtain ⟨st2, h3, h4⟩ := emulateCode_reads h2.rs n
          exact ⟨st2, h3, by rw [this]; exact h2.trans h4⟩
      | inst ex m => exact ⟨st1, rfl, by rw [base hs (fun v l h => by cases h)]; exact h2⟩
      | code w => exact ⟨st1, rfl, by rw [base hs (fun v l h => by cases h)]; exact h2⟩
      | void => exact ⟨st1, rfl, by rw [base hs (fun v l h => by cases h)]; exact h2⟩
      | classic n => exact ⟨st1, rfl, by rw [base hs (fun v l h => by cases h)]; exact h2⟩

theorem emulateOne_reads {st : Store LKey LVal} (h : Rs E src st) (t : Acct) :
    ∃ st', emulateOne E st t = (st', .ok ()) ∧
      Reads E src st st' (if t.source = true then [] else signerKeys E (seen E st) t.addr) := by
  unfold emulateOne
  by_cases hs : t.source = true
  · rw [if_pos hs, if_pos hs]; exact ⟨st, rfl, .refl h⟩
  · rw [if_neg hs, if_neg hs]
    cases t.addr with
    | account id =>
      obtain ⟨st', h1, h2⟩ := tryGet_reads h (.account id)
      exact ⟨st', by dsimp only; rw [getEntry_fst, h1], h2⟩
    | contract c =>
      obtain ⟨st1, h1, h2⟩ := tryGet_reads h (.inst c)
      dsimp only
      rw [h1]
      unfold signerKeys
      dsimp only
      cases hi : seen E st (.inst c) with
      | none => exact ⟨st1, rfl, h2⟩
      | some p =>
        obtain ⟨v, l⟩ := p
        cases v with
        | inst ex m =>
          dsimp only
          obtain ⟨st2, h3, h4⟩ := emulateExec_reads h2.rs ex
          rw [h2.seen] at h4
          exact ⟨st2, h3, h2.trans h4⟩
        | data v => exact ⟨st1, rfl, h2⟩
        | code w => exact ⟨st1, rfl, h2⟩
        | void => exact ⟨st1, rfl, h2⟩
        | classic n => exact ⟨st1, rfl, h2⟩

theorem emulateAll_reads : ∀ {signers : List Acct} {st : Store LKey LVal}, Rs E src st →
    ∃ st' ks, emulateAll E signers st = (st', .ok ()) ∧ Reads E src st st' ks ∧ ∀ k, k ∈ ks ↔ NeededFor E (seen E st) signers k
  | [], st, h => ⟨st, [], rfl, .refl h, fun k => by
      refine ⟨fun hk => (by cases hk), fun hk => ?_⟩
      obtain ⟨t, ht, _⟩ := hk
      cases ht⟩
  | t :: ts, st, h => by
    obtain ⟨st1, h1, h2⟩ := emulateOne_reads h t
    obtain ⟨st2, ks, h3, h4, h5⟩ := emulateAll_reads (signers := ts) h2.rs
    refine ⟨st2, _, ?_, h2.trans h4, fun k => ?_⟩
    · rw [emulateAll, h1]; exact h3
    · rw [List.mem_append, h5 k, h2.seen]
      constructor
      · rintro (hk | ⟨t', ht', hs, hk⟩)
        · by_cases hs : t.source = true
          · rw [if_pos hs] at hk; cases hk
          · rw [if_neg hs] at hk
            exact ⟨t, List.mem_cons_self, by simpa using hs, hk⟩
        · exact ⟨t', List.mem_cons_of_mem _ ht', hs, hk⟩
      · rintro ⟨t', ht', hs, hk⟩
        rcases List.mem_cons.mp ht' with rfl | ht'
        · left; rw [hs]; exact hk
        · right; exact ⟨t', ht', hs, hk⟩

end Soroban.Host
