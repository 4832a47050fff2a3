import Verif.Spec.Context
import Verif.Props.MemoryCalls
import Verif.Props.Storage
/-!
C107: what a contract is told about the ledger and itself.
-/
namespace Soroban.Props
open Soroban Soroban.Spec Soroban.Context

private theorem told {li : Option Ledger} {frames : List (Option Nat)} {l : Lin} {f : CFn} {objs : List HostObj} {v : Nat}
    (hr : runC li frames l.objs f = .ok (objs, v)) (hs : Sound objs v) (he : ∃ e, objs = l.objs ++ e) (ht : l.tbl.length < 2^31) :
    ∃ (l' : Lin) (w : Nat), dispatchC li frames l f = .ok (l', (w : Int)) ∧ l'.mem = l.mem ∧ l'.objs = objs ∧ Shows l' w v ∧
      (Val.isObject v = false → w = v) ∧ ∀ x u, Shows l x u → Shows l' x u := by
  obtain ⟨e, x, hab, hsh⟩ := back_shows l.mem hs ht
  refine ⟨⟨l.mem, objs, l.tbl ++ e⟩, x, ?_, rfl, rfl, hsh, ?_, ?_⟩
  · unfold dispatchC
    exact bind_ok.mpr ⟨_, hr, bind_ok.mpr ⟨_, hs.2, bind_ok.mpr ⟨_, hab, rfl⟩⟩⟩
  · intro hob
    unfold absToRel at hab
    rw [hob] at hab
    simp only [Bool.false_eq_true, if_false] at hab
    injection hab with hab
    injection hab with _ hab
    exact hab.symm
  · intro x u hx
    obtain ⟨e', rfl⟩ := he
    exact ⟨hx.1, hx.2.1, relToAbs_append hx.2.2.1, hx.2.2.2.append⟩

private theorem valU32_eq {n : Nat} (h : n < 2^32) : valU32 n = n * 2^32 + 4 := by
  unfold valU32
  rw [fromMajorMinorAndTag_eq _ h (by omega)]
  have : Tag.code .U32Val = 4 := rfl
  omega

private theorem u32_plain (n : Nat) : Val.isObject (n * 2^32 + 4) = false := by
  cases hx : Val.isObject (n * 2^32 + 4)
  · rfl
  · rw [isObject_iff] at hx; omega

private theorem u64_plain (n : Nat) : Val.isObject (n * 2^8 + 6) = false := by
  cases hx : Val.isObject (n * 2^8 + 6)
  · rfl
  · rw [isObject_iff] at hx; omega

private theorem told_u32 {li : Option Ledger} {frames : List (Option Nat)} {l : Lin} {f : CFn} {n : Nat} (hn : n < 2^32)
    (hr : runC li frames l.objs f = .ok (l.objs, valU32 n)) (ht : l.tbl.length < 2^31) :
    ∃ (l' : Lin) (w : Nat), dispatchC li frames l f = .ok (l', (w : Int)) ∧ l'.mem = l.mem ∧ Tells l' w (.u32 n) ∧
      ∀ x u, Shows l x u → Shows l' x u := by
  rw [valU32_eq hn] at hr
  obtain ⟨l', w, h1, h2, _, _, h4, h5⟩ := told hr (wideIs_sound (by omega) (.int32 4 n (.inl rfl) hn) (u32_plain n))
    ⟨[], (List.append_nil _).symm⟩ ht
  cases h4 (u32_plain n)
  exact ⟨l', _, h1, h2, .u32 n hn, h5⟩

private theorem told_obj {li : Option Ledger} {frames : List (Option Nat)} {l : Lin} {f : CFn} {o : HostObj} {s : ScVal}
    (hr : runC li frames l.objs f = addObj l.objs o)
    (hs : ∀ (l' : Lin) w v, Shows l' w v → visitObj l'.objs v = .ok o → Tells l' w s) (hl : l.objs.length < 2^31)
    (ht : l.tbl.length < 2^31) :
    ∃ (l' : Lin) (w : Nat), dispatchC li frames l f = .ok (l', (w : Int)) ∧ l'.mem = l.mem ∧ Tells l' w s ∧
      ∀ x u, Shows l x u → Shows l' x u := by
  obtain ⟨v, hv⟩ := addObj_ok o hl
  obtain ⟨_, h1, h2, _⟩ := addObj_sound hl hv
  obtain ⟨l', w, g1, g2, g3, g4, _, g5⟩ := told (hr.trans hv) h1 ⟨_, rfl⟩ ht
  exact ⟨l', w, g1, g2, hs l' w v g4 (by rw [g3]; exact h2), g5⟩

/-- C107: each of these functions gives a contract a word that stands for exactly what it asks for, and all the words it held before
stand for the same as before. They fail if there is no answer. -/
theorem C107_context {li : Ledger} {frames : List (Option Nat)} {l : Lin} {f : CFn} (h1 : li.protocol < 2^32) (h2 : li.live.seq < 2^32)
    (h3 : li.timestamp < 2^64) (hl : l.objs.length < 2^31) (ht : l.tbl.length < 2^31) :
    match answer li (frames.head?.join) f with
    | some s => ∃ (l' : Lin) (w : Nat), dispatchC (some li) frames l f = .ok (l', (w : Int)) ∧ l'.mem = l.mem ∧ Tells l' w s ∧
        ∀ x u, Shows l x u → Shows l' x u
    | none => dispatchC (some li) frames l f = .error (.host .context .internalError) := by
  cases f with
  | version => exact told_u32 h1 rfl ht
  | sequence => exact told_u32 h2 rfl ht
  | timestamp =>
    by_cases hs : li.timestamp < 2^56
    · have hr : runC (some li) frames l.objs .timestamp = .ok (l.objs, li.timestamp * 2^8 + 6) := by
        simp only [runC, withLedger, u64Val]
        rw [if_pos ((isSmallU64_iff h3).2 hs), fromBodyAndTag_eq]
        have : Tag.code .U64Small = 6 := rfl
        rw [this, Nat.mod_eq_of_lt hs]
        rfl
      obtain ⟨l', w, g1, g2, _, _, g4, g5⟩ := told hr
        (wideIs_sound (by omega) (.smallInt 6 _ (by omega) (by omega) hs) (u64_plain _)) ⟨[], (List.append_nil _).symm⟩ ht
      cases g4 (u64_plain _)
      exact ⟨l', _, g1, g2, .u64 _ hs, g5⟩
    · refine told_obj (o := .u64 li.timestamp) ?_ (fun l' w v a b => .u64Object w v _ (by omega) h3 a b) hl ht
      simp only [runC, withLedger, u64Val]
      rw [if_neg (fun hc => hs ((isSmallU64_iff h3).1 hc))]
  | network => exact told_obj (o := .bytes li.network) rfl (fun l' w v a b => .bytes w v _ a b) hl ht
  | current =>
    rcases frames with _ | ⟨_ | id, rest⟩
    · rfl
    · rfl
    · exact told_obj (o := .address (.contract id)) rfl (fun l' w v a b => .address w v _ a b) hl ht
  | maxLive =>
    have hm : li.live.maxLiveUntil =
        if li.live.seq + (li.live.maxTtl - 1) < 2^32 then some (li.live.seq + (li.live.maxTtl - 1)) else none := by
      unfold Storage.LedgerInfo.maxLiveUntil checkedAddU32
      have hu : u32Max = 2^32 - 1 := rfl
      split <;> split <;> first | rfl | omega
    simp only [answer]
    by_cases hc : li.live.seq + (li.live.maxTtl - 1) < 2^32
    · rw [if_pos hc] at hm ⊢
      refine told_u32 hc ?_ ht
      simp only [runC, withLedger, maxLive, hm]
      rfl
    · rw [if_neg hc] at hm ⊢
      simp only [dispatchC, runC, withLedger, maxLive, hm]
      rfl

open Soroban.Storage Soroban.Storage.Spec in
/-- C107: the ledger `n` that a contract is told as the last one entries can live until is just that. If it extends the life of a live
entry by the ledgers from the current one to `n`, the entry lives until `n` (unless it lived longer already). -/
theorem C107_extend_to_told {K V : Type} [DecidableEq K] {E : Env K V} {m : Machine K V} (hR : Reachable E m) {k : K} {v : V} {old n : Nat}
    {d : Durability} (hk : E.keys.supported k = true) (hp : m.st.mode = .enforcing → (m.st.footprint.get k).isSome)
    (hc : current E m k = some (v, some old)) (hl : E.li.seq ≤ old) (hd : E.keys.durability k = some d)
    {li : Context.Ledger} (hE : li.live = E.li) {frames : List (Option Nat)} {l l' : Lin} {w : Nat}
    (hw : dispatchC (some li) frames l .maxLive = .ok (l', (w : Int))) (hn : Tells l' w (.u32 n)) :
    (step E m (.extend k (n - E.li.seq) (n - E.li.seq))).2 = .ok .unit ∧
    current E (step E m (.extend k (n - E.li.seq) (n - E.li.seq))).1 k =
      some (v, some (if old ≤ n then n else old)) := by
  obtain ⟨p, h1, h2⟩ := bind_ok.mp hw
  obtain ⟨_, _, h2⟩ := bind_ok.mp h2
  obtain ⟨q, h3, h2⟩ := bind_ok.mp h2
  simp only [runC, withLedger, maxLive] at h1
  cases hM : li.live.maxLiveUntil with
  | none =>
    rw [hM] at h1
    cases h1
  | some M =>
    rw [hM] at h1
    obtain ⟨_, h0, h1⟩ := bind_ok.mp h1
    cases h0
    cases h1
    have hMu : M < 2^32 ∧ li.live.seq ≤ M := by
      unfold Storage.LedgerInfo.maxLiveUntil checkedAddU32 at hM
      have hu : u32Max = 2^32 - 1 := rfl
      split at hM
      · cases hM; omega
      · cases hM
    dsimp only at h3
    rw [valU32_eq hMu.1] at h3
    unfold absToRel at h3
    rw [u32_plain M] at h3
    cases h3
    injection h2 with h2
    injection h2 with _ h2
    have hwM : w = M * 2^32 + 4 := by
      have := Int.ofNat.inj h2
      exact this.symm
    have hMn : n = M := by
      cases hn with
      | u32 _ h => omega
    subst hMn
    rw [hE] at hM hMu
    have hu : u32Max = 2^32 - 1 := rfl
    obtain ⟨g1, g2, _⟩ := C20_extend_exact hR (M := n) (t := n - E.li.seq) (x := n - E.li.seq) hk hp hc hl ((lastPossible_iff ..).2 hM) hd
      (Nat.le_refl _) (by omega) (fun _ => Nat.le_refl _)
    refine ⟨g1, ?_⟩
    rw [g2]
    congr 3
    split <;> split <;> omega

/-- A ledger with the settings of the example for storage and a time that does not fit into a word. -/
private def ledger107 : Context.Ledger := ⟨26, 2^60, [1, 2, 3], StorageExample.env.li⟩

/-- The answers there: the time is an object, contract 9 is running, and entries live until ledger 1099 at most. -/
example : answer ledger107 (some 9) .timestamp = some (.u64 (2^60)) ∧ answer ledger107 (some 9) .maxLive = some (.u32 1099) ∧
    answer ledger107 (some 9) .current = some (.address (.contract 9)) ∧ answer ledger107 none .current = none ∧
    (dispatchC (some ledger107) [some 9, none] ⟨[], [], []⟩ .timestamp).toOption =
      some (⟨[], [.u64 (2^60)], [1 * 2^32 + 64]⟩, 0 * 2^32 + 64) ∧
    (dispatchC (some ledger107) [some 9, none] ⟨[], [], []⟩ .current).toOption =
      some (⟨[], [.address (.contract 9)], [1 * 2^32 + 77]⟩, 0 * 2^32 + 77) ∧
    (dispatchC (some ledger107) [some 9, none] ⟨[], [], []⟩ .maxLive).toOption = some (⟨[], [], []⟩, 1099 * 2^32 + 4) :=
  ⟨rfl, rfl, rfl, rfl, by decide +kernel, by decide +kernel, by decide +kernel⟩

open Soroban.Storage Soroban.Storage.Spec StorageExample in
/-- `C107_extend_to_told` there. -/
example : current env (step env (enforcing fp map) (.extend 1 999 999)).1 1 = some (7, some 1099) :=
  (C107_extend_to_told (k := 1) (v := 7) (old := 120) (n := 1099) (d := .temporary) ⟨_, [], .enforcing isLoaded, by simp, rfl⟩ rfl
    (fun _ => rfl) rfl (by decide) rfl (li := ledger107) rfl (frames := [some 9]) (l := ⟨[], [], []⟩) (l' := ⟨[], [], []⟩)
    (w := 1099 * 2^32 + 4) rfl (.u32 1099 (by decide))).2

end Soroban.Props
