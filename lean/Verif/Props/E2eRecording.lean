import Verif.Lemmas.E2eRecording
import Verif.Props.E2e
import Verif.Lemmas.Objects
/-! C60: preflight with given authorizations predicts what the submitted transaction does. -/
namespace Soroban.Props
open Soroban Soroban.E2e Soroban.E2e.Spec Soroban.Host Soroban.Host.Spec Soroban.Auth Soroban.Storage
open Soroban.Storage.Spec hiding step runProg

variable {X : Type} {E : HEnv} {R : RecInput X} {out : RecOutput X} {b : Bool}

namespace E2eRecAux

/-- All that preflight returns. -/
structure Preflight (E : HEnv) (R : RecInput X) (m : Nat) (res : Res RVal) (evs : List (X × Bool)) (cs : List (Change LKey LVal))
    (out : RecOutput X) : Prop where
  result : out.result = res
  footprint : out.footprint = recFp E R
  disk : out.diskReadBytes = min (((recFp E R).readOnly ++ (recFp E R).readWrite).map (diskLen E.sto R.len R.snapshot)).sum u32Max
  write : out.writeBytes = writeBytes R.len out.changes
  restored : out.restored = recIds E R
  auth : out.auth = R.auth
  ok : ∀ v, res = .ok v → out.changes = cs ++ footprintOnly (recEnded E R).1.st ∧ out.events = contractEvents evs ∧
    out.eventsAndReturnSize = out.events.foldl (fun n e => satAddU32 n (R.eventLen e)) (satAddU32 0 (R.resultLen v))
  error : ∀ e, res = .error e → out.changes = [] ∧ out.events = [] ∧ out.eventsAndReturnSize = 0

/-- Preflight returns if the result and the events can be encoded. -/
theorem preflight_ok (h : RecInputOk E R) {m : Nat} (hmin : E.sto.li.minLiveUntil .persistent = some m) {res : Res RVal} {evs : List (X × Bool)}
    {cs : List (Change LKey LVal)} (hres : encodedResult R (recEnded E R).2 = .ok res)
    (hev : externalizeAll R.encodeEvent (recEnded E R).1.events = .ok evs)
    (hcs : getLedgerChanges E.sto R.sizes (recEnded E R).1.st.map (snapshotLiveUntil R.snapshot) (recFp E R) (recSizes E R) m
      (recRestored E R) = .ok cs) : ∃ out, recordInvocation E R = .ok out ∧ Preflight E R m res evs cs out := by
  obtain ⟨F, hF⟩ := buildFootprint_some (supported h) (recFp E R)
  have hs := snap_eq h
  have hz := sizes_eq h
  have e0 : recordInvocation E R = recCollect E R m (recEnded E R) := by
    unfold recordInvocation; rw [hmin]; rfl
  have hfp : ledgerFootprint (recEnded E R).1.st.footprint = recFp E R := rfl
  have hrr : (if ((indexedKeys (recFp E R)).filter (fun x => archived E.sto R.snapshot x.2)).map Prod.snd = [] then none
      else some (((indexedKeys (recFp E R)).filter (fun x => archived E.sto R.snapshot x.2)).map Prod.snd)) = recRestored E R := rfl
  rw [e0]
  unfold recCollect
  simp only [hres, hfp, hF, hs, hz, hev, bind, Except.bind, hrr]
  cases res with
  | ok v =>
    simp only [hcs, pure, Except.pure]
    exact ⟨_, rfl, rfl, rfl, rfl, rfl, rfl, rfl, fun w hw => (by cases hw; exact ⟨rfl, rfl, rfl⟩), fun e he => (by cases he)⟩
  | error e =>
    exact ⟨_, rfl, rfl, rfl, rfl, rfl, rfl, rfl, fun w hw => (by cases hw), fun e he => (by cases he; exact ⟨rfl, rfl, rfl⟩)⟩

theorem preflight_inv (h : recordInvocation E R = .ok out) : ∃ m res evs, E.sto.li.minLiveUntil .persistent = some m ∧
    encodedResult R (recEnded E R).2 = .ok res ∧ externalizeAll R.encodeEvent (recEnded E R).1.events = .ok evs := by
  unfold recordInvocation at h
  cases hm : E.sto.li.minLiveUntil .persistent with
  | none => rw [hm] at h; cases h
  | some m =>
    rw [hm] at h
    have h : recCollect E R m (recEnded E R) = .ok out := h
    unfold recCollect at h
    obtain ⟨res, h1, h⟩ := bind_ok.mp h
    obtain ⟨_, _, h⟩ := bind_ok.mp h
    obtain ⟨_, _, h⟩ := bind_ok.mp h
    obtain ⟨_, _, h⟩ := bind_ok.mp h
    obtain ⟨evs, h5, h⟩ := bind_ok.mp h
    exact ⟨m, res, evs, rfl, h1, h5⟩

theorem encoded_cases {r : Res RVal} {res : Res RVal} (h : encodedResult R r = .ok res) : r.bind R.encodeResult = res := by
  cases r with
  | error e => cases h; rfl
  | ok v =>
    simp only [encodedResult, Except.map] at h
    simp only [Except.bind]
    cases he : R.encodeResult v with
    | error e => rw [he] at h; cases h
    | ok w => rw [he] at h; cases h; rfl

/-- Preflight and the submitted transaction, side by side. -/
structure Both (E : HEnv) (b : Bool) (R : RecInput X) (out : RecOutput X) (sub : Output X) (m : Nat) (st : Store LKey LVal) (sizes : List (Option Nat))
    (restored : Option (List LKey)) (s' : Host) (res : Res RVal) (evs : List (X × Bool)) (cs cs' : List (Change LKey LVal)) : Prop where
  pre : Preflight E R m res evs cs out
  rep : Replayed E b R (submitted E R out) m st sizes restored s' cs cs'
  sent : invokeHostFunction (E.feat b) (submitted E R out) = .ok sub
  result : sub.result = res
  ok : ∀ v, res = .ok v → sub.changes = cs' ∧ sub.events = contractEvents evs
  error : ∀ e, res = .error e → sub.changes = [] ∧ sub.events = []

theorem both (h : RecInputOk E R) (b : Bool) (hr : recordInvocation E R = .ok out) :
    ∃ sub m st sizes restored s' res evs cs cs', Both E b R out sub m st sizes restored s' res evs cs cs' := by
  obtain ⟨m, res, evs, hmin, hres, hev⟩ := preflight_inv hr
  -- the changes of preflight do not depend on the output
  obtain ⟨st0, sizes0, restored0, s0, cs, cs0, hrep0⟩ := E2e.replay h b hmin
    (out := { out with footprint := recFp E R, restored := recIds E R, auth := R.auth }) rfl rfl rfl
  obtain ⟨out', ho', hpre⟩ := preflight_ok h hmin hres hev hrep0.recorded
  rw [hr] at ho'
  cases ho'
  obtain ⟨st, sizes, restored, s', cs1, cs', hrep⟩ := E2e.replay h b hmin hpre.footprint hpre.restored hpre.auth
  have : cs1 = cs := by
    have := hrep.recorded
    rw [hrep0.recorded] at this
    cases this; rfl
  subst this
  have hcore := hrep.sim.core
  have hevs : s'.events = (recEnded E R).1.events := congrArg Core.events hcore
  have hb := encoded_cases hres
  have hrun : invokeHostFunction (E.feat b) (submitted E R out) = collect (E.feat b) (submitted E R out) st sizes restored m (s', (recEnded E R).2) := by
    unfold invokeHostFunction
    rw [hrep.setup]
    simp only [hrep.run]
  have he1 : externalizeAll (submitted E R out).encodeEvent s'.events = .ok evs := by rw [hevs]; exact hev
  have hb' : (recEnded E R).2.bind (submitted E R out).encodeResult = res := hb
  have hen := hrep.enforced
  cases hres' : res with
  | ok v =>
    rw [hres'] at hb'
    refine ⟨{ result := .ok v, changes := cs', events := contractEvents evs }, m, st, sizes, restored, s', _, evs, cs1, cs', hres' ▸ hpre, hrep, ?_, rfl,
      fun w hw => (by cases hw; exact ⟨rfl, rfl⟩), fun e he => (by cases he)⟩
    rw [hrun]
    unfold collect
    simp only [he1, hen, bind, Except.bind, pure, Except.pure]
    simp only [Except.bind] at hb'
    rw [hb']
  | error e =>
    rw [hres'] at hb'
    refine ⟨{ result := .error e, changes := [], events := [] }, m, st, sizes, restored, s', _, evs, cs1, cs', hres' ▸ hpre, hrep, ?_, rfl,
      fun w hw => (by cases hw), fun e he => (by cases he; exact ⟨rfl, rfl⟩)⟩
    rw [hrun]
    unfold collect
    simp only [he1, bind, Except.bind, pure, Except.pure]
    simp only [Except.bind] at hb'
    rw [hb']

end E2eRecAux
open E2eRecAux

/-- C60: preflight returns, unless the result or an event cannot be encoded. In particular, an archived entry that is used is always declared
as read-write. -/
theorem C60_preflight_completes (h : RecInputOk E R) (hres : ∀ v, ∃ w, R.encodeResult v = .ok w) (hev : ∀ e, ∃ x, R.encodeEvent e = .ok x) :
    ∃ out, recordInvocation E R = .ok out := by
  obtain ⟨m, hmin⟩ := Option.isSome_iff_exists.mp h.min
  have h1 : ∃ res, encodedResult R (recEnded E R).2 = .ok res := by
    cases (recEnded E R).2 with
    | error e => exact ⟨_, rfl⟩
    | ok v =>
      obtain ⟨w, hw⟩ := hres v
      exact ⟨.ok w, by simp only [encodedResult, hw]; rfl⟩
  have h2 : ∀ l, ∃ evs, externalizeAll R.encodeEvent l = .ok evs := by
    intro l
    induction l with
    | nil => exact ⟨[], rfl⟩
    | cons e l ih =>
      obtain ⟨evs, hevs⟩ := ih
      obtain ⟨x, hx⟩ := hev e.1
      exact ⟨(x, e.2) :: evs, by simp only [externalizeAll, hx, hevs, bind, Except.bind, pure, Except.pure]⟩
  obtain ⟨res, hr⟩ := h1
  obtain ⟨evs, hevs⟩ := h2 (recEnded E R).1.events
  obtain ⟨st0, sizes0, restored0, s0, cs, cs0, hrep0⟩ := E2e.replay h true hmin
    (out := { result := .error contextInternal, footprint := recFp E R, diskReadBytes := 0, writeBytes := 0, restored := recIds E R,
              auth := R.auth, changes := [], events := [], eventsAndReturnSize := 0 }) rfl rfl rfl
  obtain ⟨out, ho, _⟩ := preflight_ok h hmin hr hevs hrep0.recorded
  exact ⟨out, ho⟩

/-- C60: the transaction with the declarations of preflight is applied, with the same result and the same events, whether the code of
recording mode is compiled in or not. -/
theorem C60_same_outcome (h : RecInputOk E R) (hr : recordInvocation E R = .ok out) (b : Bool) :
    ∃ sub, invokeHostFunction (E.feat b) (submitted E R out) = .ok sub ∧ sub.result = out.result ∧ sub.events = out.events := by
  obtain ⟨sub, m, st, sizes, restored, s', res, evs, cs, cs', hb⟩ := both h b hr
  refine ⟨sub, hb.sent, by rw [hb.result, hb.pre.result], ?_⟩
  cases hres : res with
  | ok v => rw [(hb.ok v hres).2, (hb.pre.ok v hres).2.1]
  | error e => rw [(hb.error e hres).2, (hb.pre.error e hres).2.1]

namespace E2eRecAux

theorem filter_partition (fp : FMap LKey Access) (p : LKey → Bool) :
    ((fp.filter (fun x => p x.1)).map (fun x => (x.1, decide (x.2 = .readOnly)))).Perm
      (((accesses (ledgerFootprint fp)).filter (fun x => p x.2)).map (fun x => (x.2, decide (x.1 = .readOnly)))) := by
  have h1 : accesses (ledgerFootprint fp) =
      (fp.filter (fun x => x.2 = .readOnly) ++ fp.filter (fun x => x.2 = .readWrite)).map (fun x => (x.2, x.1)) := by
    unfold accesses ledgerFootprint
    rw [List.map_append, List.map_map, List.map_map]
    congr 1
    · apply List.map_congr_left
      intro x hx
      have := (List.mem_filter.mp hx).2
      simp only [decide_eq_true_eq] at this
      simp [this]
    · apply List.map_congr_left
      intro x hx
      have := (List.mem_filter.mp hx).2
      simp only [decide_eq_true_eq] at this
      simp [this]
  have h2 : (fp.filter (fun x => x.2 = .readOnly) ++ fp.filter (fun x => x.2 = .readWrite)).Perm fp := by
    have : (fun x : LKey × Access => decide (x.2 = .readWrite)) = (fun x => !decide (x.2 = .readOnly)) := by
      funext x; cases x.2 <;> rfl
    rw [this]
    exact List.filter_append_perm _ _
  rw [h1, List.filter_map, List.map_map]
  exact (((h2.filter _).map _).symm)

theorem forall2_map {A B C : Type} {S : A → B → Prop} {f : A → C} {g : B → C} {l : List A} {l' : List B} (h : List.Forall₂ S l l')
    (hs : ∀ a b, S a b → f a = g b) : l.map f = l'.map g := by
  induction h with
  | nil => rfl
  | cons h1 _ ih => rw [List.map_cons, List.map_cons, hs _ _ h1, ih]

theorem writeBytes_eq {len : LVal → Nat} (cs : List (Change LKey LVal)) : writeBytes len cs = min ((cs.map (writeLen len)).sum) u32Max := by
  have main : ∀ (cs : List (Change LKey LVal)) (n : Nat), n ≤ u32Max → cs.foldl (addWrite len) n =
      min (n + (cs.map (writeLen len)).sum) u32Max := by
    intro cs
    induction cs with
    | nil => intro n hn; simp [Nat.min_eq_left hn]
    | cons c cs ih =>
      intro n hn
      rw [List.foldl_cons, List.map_cons, List.sum_cons]
      have hstep : addWrite len n c = min (n + writeLen len c) u32Max := by
        unfold addWrite writeLen
        split
        · rw [Nat.add_zero, Nat.min_eq_left hn]
        · cases c.newValue with
          | none => simp [Nat.min_eq_left hn]
          | some v => exact satAdd_eq _ _
      rw [hstep, ih _ (Nat.min_le_right ..)]
      generalize u32Max = M
      omega
  have := main cs 0 (Nat.zero_le _)
  rw [Nat.zero_add] at this
  exact this

theorem sumBytes_eq {A : Type} (f : A → Nat) (l : List A) (n : Nat) (hn : n ≤ u32Max) :
    l.foldl (fun n e => satAddU32 n (f e)) n = min (n + (l.map f).sum) u32Max := by
  induction l generalizing n with
  | nil => simp [Nat.min_eq_left hn]
  | cons a l ih =>
    rw [List.foldl_cons, List.map_cons, List.sum_cons, ih _ (by rw [satAdd_eq]; exact Nat.min_le_right ..), satAdd_eq]
    generalize u32Max = M
    omega

theorem sub_input (h : RecInputOk E R) {m : Nat} {res : Res RVal} {evs : List (X × Bool)} {cs : List (Change LKey LVal)}
    (hp : Preflight E R m res evs cs out) : InputOk (E.feat b) (submitted E R out) :=
  ⟨h.keys, by show Host.Spec.Fresh out.auth; rw [hp.auth]; exact h.auth⟩

end E2eRecAux
open E2eRecAux

/-- C60: for the entries that are used by calls that do not fail, preflight reports the same changes as the submitted transaction: the
same keys, values, lifetimes and rent. For the other declared entries, preflight reports the key only. They are unchanged. -/
theorem C60_changes (h : RecInputOk E R) (hr : recordInvocation E R = .ok out) {sub : Output X}
    (hs : invokeHostFunction (E.feat b) (submitted E R out) = .ok sub) {v : RVal} (hv : out.result = .ok v) :
    ∃ used rest, out.changes = used ++ rest ∧
      List.Forall₂ SameChange used (sub.changes.filter (fun c => !onlyInFailedCalls E R c.key)) ∧
      (rest.map (fun c => (c.key, c.readOnly))).Perm
        ((sub.changes.filter (fun c => onlyInFailedCalls E R c.key)).map (fun c => (c.key, c.readOnly))) ∧
      (∀ c ∈ rest, c.newValue = none ∧ c.ttl = none ∧ c.oldSize = 0 ∧ c.newSize = 0) ∧
      (∀ c ∈ sub.changes, onlyInFailedCalls E R c.key = true →
        c.newValue = if c.readOnly then none else valueOf (view E.sto c.key (R.snapshot c.key))) := by
  obtain ⟨sub', m, st, sizes, restored, s', res, evs, cs, cs', hb⟩ := both h b hr
  have := hb.sent
  rw [hs] at this
  cases this
  have hres : res = .ok v := by rw [← hb.pre.result, hv]
  obtain ⟨hch, _⟩ := hb.pre.ok v hres
  obtain ⟨hch', _⟩ := hb.ok v hres
  have hneg : (fun c : Change LKey LVal => !onlyInFailedCalls E R c.key) = (fun c => ((recEnded E R).1.st.map.get c.key).isSome) := by
    funext c; unfold onlyInFailedCalls; cases (recEnded E R).1.st.map.get c.key <;> rfl
  obtain ⟨st1, s1, m1, hsuc⟩ := E2eAux.success (sub_input h hb.pre) hs (by rw [hb.result, hres])
  have hfp : (submitted E R out).footprint = recFp E R := hb.pre.footprint
  have hacc : cs'.map (fun c => (c.key, c.readOnly)) = (accesses (recFp E R)).map (fun x => (x.2, decide (x.1 = .readOnly))) := by
    have hc := hsuc.changes
    rw [hch'] at hc
    rw [← hfp, ← items_fst hsuc.len, List.map_map]
    exact (forall2_map hc (fun x c hx => by
      have h2 := hx.access
      simp only [Function.comp_apply, Prod.mk.injEq]
      refine ⟨hx.key.symm, ?_⟩
      cases hro : c.readOnly with
      | true => exact decide_eq_true (h2.mp hro)
      | false => exact decide_eq_false (fun hc => by rw [h2.mpr hc] at hro; cases hro))).symm
  refine ⟨cs, footprintOnly (recEnded E R).1.st, hch, ?_, ?_, ?_, ?_⟩
  · rw [hneg, hch']; exact hb.rep.same
  · rw [hch']
    have e1 : (footprintOnly (recEnded E R).1.st).map (fun c => (c.key, c.readOnly)) =
        ((recEnded E R).1.st.footprint.filter (fun x => onlyInFailedCalls E R x.1)).map (fun x => (x.1, decide (x.2 = .readOnly))) := by
      unfold footprintOnly
      rw [List.map_map]; rfl
    have e2 : (cs'.filter (fun c => onlyInFailedCalls E R c.key)).map (fun c => (c.key, c.readOnly)) =
        ((cs'.map (fun c => (c.key, c.readOnly))).filter (fun x => onlyInFailedCalls E R x.1)) := by
      rw [List.filter_map]; rfl
    rw [e1, e2, hacc, List.filter_map]
    exact filter_partition _ _
  · intro c hc
    unfold footprintOnly at hc
    obtain ⟨x, _, rfl⟩ := List.mem_map.mp hc
    exact ⟨rfl, rfl, rfl, rfl⟩
  · intro c hc honly
    obtain ⟨x, hx, hco⟩ := E2eAux.mem_right hsuc.changes hc
    have hk := hco.key
    -- the entry at the end
    have hfin : finalLedger (E.feat b) (submitted E R out) c.key = view E.sto c.key (R.snapshot c.key) := by
      have hend : ended (E.feat b) (submitted E R out) = some (s', (recEnded E R).2) := by
        unfold ended; rw [hb.rep.setup]; simp only [hb.rep.run]
      unfold finalLedger
      rw [hend]
      have hdecl : allows st.footprint c.key .readOnly = true := by
        have hset := setup_ok hb.rep.setup
        show (st.footprint.get c.key).isSome = true
        rw [hset.fp]
        have := mem_items hx
        rw [hk]
        rcases mem_accesses.mp (show (x.1.1, x.1.2) ∈ _ from this) with ⟨_, h2⟩ | ⟨_, h2⟩
        · simp [h2]
        · by_cases h1 : x.1.2 ∈ (submitted E R out).footprint.readOnly <;> simp [h1, h2]
      show Host.ledger (E.feat b) s'.st c.key = _
      rw [← hb.rep.sim.agree c.key hdecl]
      unfold onlyInFailedCalls at honly
      have hnone : (recEnded E R).1.st.map.get c.key = none := by simpa using honly
      unfold Host.ledger absMap
      rw [hnone, (ended_ok h).mode]
    rw [hco.value, ← hk, hfin]
    have ha := hco.access
    cases hro : c.readOnly with
    | true => simp [ha.mp hro]
    | false =>
      have : x.1.1 = .readWrite := by
        cases hx1 : x.1.1 with
        | readWrite => rfl
        | readOnly => rw [ha.mpr hx1] at hro; cases hro
      simp [this]

/-- C60: if every declared entry is used by a call that does not fail, all changes are the same, and so are the bytes written and the rent
changes. -/
theorem C60_all_used (h : RecInputOk E R) (hr : recordInvocation E R = .ok out) {sub : Output X}
    (hs : invokeHostFunction (E.feat b) (submitted E R out) = .ok sub) (hu : ∀ c ∈ sub.changes, onlyInFailedCalls E R c.key = false) :
    List.Forall₂ SameChange out.changes sub.changes ∧ out.writeBytes = min (sub.changes.map (writeLen R.len)).sum u32Max ∧
      extractRentChanges sub.changes = extractRentChanges out.changes := by
  obtain ⟨sub', m, st, sizes, restored, s', res, evs, cs, cs', hb⟩ := both h b hr
  have hsame : List.Forall₂ SameChange out.changes sub.changes := by
    have := hb.sent
    rw [hs] at this
    cases this
    cases hres : res with
    | error e => rw [(hb.error e hres).1, (hb.pre.error e hres).1]; exact .nil
    | ok v =>
      obtain ⟨used, rest, h1, h2, h3, _, _⟩ := C60_changes h hr hs (hb.pre.result.trans hres)
      have e1 : sub.changes.filter (fun c => onlyInFailedCalls E R c.key) = [] :=
        List.filter_eq_nil_iff.mpr (fun c hc => by rw [hu c hc]; simp)
      have e2 : sub.changes.filter (fun c => !onlyInFailedCalls E R c.key) = sub.changes :=
        List.filter_eq_self.mpr (fun c hc => by rw [hu c hc]; rfl)
      rw [e1] at h3
      have h4 : rest = [] := List.map_eq_nil_iff.mp (List.Perm.eq_nil h3)
      rw [e2] at h2
      rw [h1, h4, List.append_nil]
      exact h2
  refine ⟨hsame, ?_, ?_⟩
  · rw [hb.pre.write, writeBytes_eq]
    rw [forall2_map (f := writeLen R.len) (g := writeLen R.len) hsame (fun c c' hc => by
      unfold writeLen; rw [hc.access, hc.value])]
  · unfold extractRentChanges
    generalize out.changes = l at hsame
    generalize sub.changes = l' at hsame
    induction hsame with
    | nil => rfl
    | cons h1 _ ih => rw [List.filterMap_cons, List.filterMap_cons, h1.rent, ih]

/-- C60: what preflight declares. No key is declared twice; the restored entries are those that are in the archive, and they are declared as
read-write; the bytes read from disk are those of archived entries and of entries that are not contract entries; the bytes written are
those of the reported changes; the size of the output is that of the result and of the events. -/
theorem C60_resources (h : RecInputOk E R) (hr : recordInvocation E R = .ok out) :
    (out.footprint.readOnly ++ out.footprint.readWrite).Nodup ∧
    (∀ i, i ∈ out.restored ↔ ∃ k, out.footprint.readWrite[i]? = some k ∧ archived E.sto R.snapshot k = true) ∧
    (∀ k ∈ out.footprint.readOnly, archived E.sto R.snapshot k = false) ∧
    out.diskReadBytes = min ((out.footprint.readOnly ++ out.footprint.readWrite).map (diskLen E.sto R.len R.snapshot)).sum u32Max ∧
    out.writeBytes = min (out.changes.map (writeLen R.len)).sum u32Max ∧
    (∀ v, (recEnded E R).2 = .ok v → ∀ w, R.encodeResult v = .ok w → out.result = .ok w ∧
      out.eventsAndReturnSize = min (R.resultLen w + (out.events.map R.eventLen).sum) u32Max) := by
  obtain ⟨sub', m, st, sizes, restored, s', res, evs, cs, cs', hb⟩ := both h true hr
  have hp := hb.pre
  have hi := (ended_ok h).inv
  refine ⟨?_, ?_, ?_, ?_, ?_, ?_⟩
  · rw [hp.footprint]
    have hn := hi.nodup
    unfold recFp ledgerFootprint
    rw [List.nodup_append]
    refine ⟨?_, ?_, ?_⟩
    · exact (List.Sublist.map _ List.filter_sublist).nodup hn
    · exact (List.Sublist.map _ List.filter_sublist).nodup hn
    · intro a ha b' hb' hab
      subst hab
      have h1 := (mem_ledgerFootprint hn a).1.mp ha
      have h2 := (mem_ledgerFootprint hn a).2.mp hb'
      rw [h1] at h2; cases h2
  · intro i
    rw [hp.footprint, hp.restored]
    exact mem_restored _ _ i
  · intro k hk
    rw [hp.footprint] at hk
    cases ha : archived E.sto R.snapshot k with
    | false => rfl
    | true => exact absurd hk (archived_rw h ha (List.mem_append_left _ hk)).2
  · rw [hp.footprint]; exact hp.disk
  · rw [hp.write]; exact writeBytes_eq _
  · intro v hv w hw
    obtain ⟨m'', res'', evs'', h1, h2, h3⟩ := preflight_inv hr
    have hrw : res = .ok w := by
      have hc := encoded_cases h2
      rw [hv] at hc
      simp only [Except.bind, hw] at hc
      -- the result of preflight is the encoded one
      have hpo : out.result = res'' := by
        obtain ⟨out', ho', hpre⟩ := preflight_ok h h1 h2 h3 (by
          have hm : m'' = m := by
            have := (setup_ok hb.rep.setup).min
            have this : E.sto.li.minLiveUntil .persistent = some m := this
            rw [h1] at this; cases this; rfl
          rw [hm]; exact hb.rep.recorded)
        rw [hr] at ho'; cases ho'; exact hpre.result
      rw [← hp.result, hpo, ← hc]
    refine ⟨hp.result.trans hrw, ?_⟩
    obtain ⟨_, _, e3⟩ := hp.ok w hrw
    rw [e3, sumBytes_eq _ _ _ (by rw [satAdd_eq]; exact Nat.min_le_right ..), satAdd_eq]
    generalize u32Max = M
    omega

/-- C60: a transaction may also declare more than preflight does. Whatever a host in enforcing mode with a footprint that includes the recorded
one, and with what contracts may see of the declared entries, is asked to do, it does as in preflight: the result is the same, the events
and the authorizations are the same, and the declared entries are the same afterwards. -/
theorem C60_larger_footprint (h : RecInputOk E R) {st : Store LKey LVal} (hm : st.mode = .enforcing)
    (hd : ∀ k a, allows (recEnded E R).1.st.footprint k a = true → allows st.footprint k a = true)
    (hst : ∀ k, (st.footprint.get k).isSome = true → st.map.get k = some (view E.sto k (R.snapshot k)))
    (hin : ∀ k, (st.map.get k).isSome = true → (st.footprint.get k).isSome = true) :
    ∃ s', invoke (E.feat b) (Host.init st R.auth) R.hostFn = (s', (recEnded E R).2) ∧ s'.events = (recEnded E R).1.events ∧
      s'.auth = (recEnded E R).1.auth ∧
      ∀ k, (st.footprint.get k).isSome = true → visible (E.feat b) s' k = visible E (recEnded E R).1 k := by
  obtain ⟨m, hmin⟩ := Option.isSome_iff_exists.mp h.min
  have hvl := view_live h.snapshot hmin (minLiveUntil_ge hmin)
  have hsim : Sim E b st.footprint (Host.init { footprint := [], mode := .recording R.snapshot, map := [] } R.auth) (Host.init st R.auth) := by
    refine ⟨⟨h.keys, ?_, ⟨?_, ?_⟩⟩, hm, rfl, ?_, rfl⟩
    · show ModeOk _ st.mode; rw [hm]; trivial
    · intro k e he
      have he : st.map.get k = some e := he
      have hk := hst k (hin k (by rw [he]; rfl))
      rw [he] at hk
      cases hk
      intro v l d hv hd
      obtain ⟨h1, h2⟩ := hvl k v l hv
      have hd : E.sto.keys.durability k = some d := hd
      rw [hd] at h1
      obtain ⟨l', rfl⟩ := Option.isSome_iff_exists.mp h1
      exact ⟨l', rfl, h2 l' rfl (by rw [hd]; rfl)⟩
    · intro _ k hk
      show (st.map.get k).isSome = true
      rw [hst k hk]; rfl
    · intro k hk
      have h1 : Host.ledger (E.feat b) (Host.init st R.auth).st k = view E.sto k (R.snapshot k) := by
        unfold Host.ledger absMap
        simp only [Host.init, hst k hk]
      rw [h1]; rfl
  obtain ⟨h1, h2⟩ := (lock_invoke (b := b) (F := st.footprint) R.hostFn _ (start_ok h)).sim _ hsim hd
  simp only at h1 h2
  have h2 : Sim E b st.footprint (recEnded E R).1 _ := h2
  refine ⟨_, Prod.ext rfl h1, congrArg Core.events h2.core, congrArg Core.auth h2.core, fun k hk => ?_⟩
  exact (h2.agree k hk).symm

namespace E2eRecCase
open HostCase

/-- The ledger of `HostCase`, with an archived entry of contract 2. -/
def ledger : List (LKey × Entry LVal) :=
  [(.inst 1, (.inst (.wasm 7) [], some 200)), (.inst 2, (.inst (.wasm 7) [], some 200)), (.code 7, (.code 1, some 200)),
   (.account 9, (.classic 0, none)), (.data (.contract 2) (.val 3) .persistent, (.data 10, some 60))]

def snapshot (k : LKey) : Option (Entry LVal) := FMap.get ledger k

/-- Preflight of the transaction of `HostCase`. -/
def input : RecInput Ev :=
  { hostFn := .invoke 1 fnA bodyA
    auth := [entry]
    snapshot := snapshot
    sizes := E2eCase.input.sizes
    encodeResult := fun v => .ok v
    encodeEvent := fun e => .ok e
    len := fun v => match v with | .data n => 30 + n | _ => 20
    resultLen := fun _ => 8
    eventLen := fun _ => 12 }

/-- A transaction where contract 1 tries a call that writes the entry but fails, and goes on. -/
def failing : RecInput Ev :=
  { input with
    hostFn := .invoke 1 fnA (.tryCall 2 fnB (.data (.put (.val 3) 11 .persistent) (fun _ => .fail (.contract 13))) (fun _ => .ret (.other 8)))
    auth := [] }

theorem snapshot_ok (k : LKey) (v : LVal) (l : Option Nat) (h : snapshot k = some (v, l)) : l.isSome = (keysOf.durability k).isSome := by
  have : ∀ x ∈ ledger, x.2.2.isSome = (keysOf.durability x.1).isSome := by decide
  exact this _ (FMap.mem_of_get h)

theorem input_ok : RecInputOk env input := ⟨rfl, rfl, snapshot_ok, by decide, start.auth⟩

theorem failing_ok : RecInputOk env failing := by
  refine ⟨rfl, rfl, snapshot_ok, by decide, ⟨?_, ?_, ?_⟩⟩ <;> simp [failing]

/-- Preflight finds the footprint of `HostCase`, restores the entry of contract 2 and reads it and the account from disk. -/
example : (match recordInvocation env input with
    | .ok o => decide (o.result.toOption = some (.other 8) ∧ o.footprint.readOnly = [.inst 1, .code 7, .account 9, .inst 2] ∧
        o.footprint.readWrite = [.nonce (.account 9) 5, .data (.contract 2) (.val 3) .persistent] ∧
        o.restored = [1] ∧ o.diskReadBytes = 60 ∧ o.writeBytes = 61 ∧ o.eventsAndReturnSize = 20 ∧ o.events = [⟨2, .contract 6⟩] ∧ o.changes.length = 6 ∧
        (extractRentChanges o.changes).length = 2)
    | .error _ => false) = true := by decide +kernel

/-- All declared entries are used by calls that do not fail. -/
example : (match recordInvocation env input with
    | .ok o => (match invokeHostFunction (env.feat false) (submitted env input o) with
      | .ok sub => decide (sub.changes.length = 6) && sub.changes.all (fun c => !onlyInFailedCalls env input c.key)
      | .error _ => false)
    | .error _ => false) = true := by decide +kernel

end E2eRecCase

/-- The estimates of preflight can be too low: an entry that is used only by a call that fails is declared, but preflight counts neither its
size nor its rent, while the submitted transaction writes it, and pays rent for it if it has been restored. -/
theorem C60_failed_calls_underestimated : ∃ (E : HEnv) (R : RecInput Ev) (out : RecOutput Ev) (sub : Output Ev), RecInputOk E R ∧
    recordInvocation E R = .ok out ∧ invokeHostFunction (E.feat false) (submitted E R out) = .ok sub ∧
    out.writeBytes < (sub.changes.map (writeLen R.len)).sum ∧ (sub.changes.map (writeLen R.len)).sum ≤ u32Max ∧
    extractRentChanges out.changes = [] ∧ (extractRentChanges sub.changes).length = 1 := by
  have key : (match recordInvocation HostCase.env E2eRecCase.failing with
      | .ok o => (match invokeHostFunction (HostCase.env.feat false) (submitted HostCase.env E2eRecCase.failing o) with
        | .ok sub => decide (o.writeBytes < (sub.changes.map (writeLen E2eRecCase.failing.len)).sum ∧
            (sub.changes.map (writeLen E2eRecCase.failing.len)).sum ≤ u32Max ∧
            (extractRentChanges o.changes).length = 0 ∧ (extractRentChanges sub.changes).length = 1)
        | .error _ => false)
      | .error _ => false) = true := by decide +kernel
  cases h1 : recordInvocation HostCase.env E2eRecCase.failing with
  | error e => rw [h1] at key; cases key
  | ok o =>
    rw [h1] at key
    dsimp only at key
    cases h2 : invokeHostFunction (HostCase.env.feat false) (submitted HostCase.env E2eRecCase.failing o) with
    | error e => rw [h2] at key; cases key
    | ok sub =>
      rw [h2] at key
      have := of_decide_eq_true key
      exact ⟨_, _, o, sub, E2eRecCase.failing_ok, h1, h2, this.1, this.2.1, List.length_eq_zero_iff.mp this.2.2.1, this.2.2.2⟩

end Soroban.Props
