import Verif.Lemmas.Objects
import Verif.Lemmas.Storage
import Verif.Model.Sac
/-!
Basic facts about computations of the asset contract: what each storage operation does to the ledger.
-/
namespace Soroban.Sac
open Soroban Soroban.Storage Soroban.Storage.Spec Soroban.Auth

abbrev Led := Ledger SKey SVal

/-- The ledger a state stands for. -/
def led (E : SEnv) (s : Tok) : Led := absMap E.sto s.st.mode s.st.map

/-- A storage in good order. -/
def StOk (E : SEnv) (st : Store SKey SVal) : Prop := ModeOk E.sto st.mode ∧ MapOk E.sto st.mode st.footprint st.map

theorem M.bind_ok {α β : Type} {x : M α} {f : α → M β} {s : Tok} {r : β × Tok} :
    (x >>= f) s = .ok r ↔ ∃ a s1, x s = .ok (a, s1) ∧ f a s1 = .ok r := by
  show (match x s with | Except.error e => Except.error e | Except.ok (a, s') => f a s') = Except.ok r ↔ _
  cases h : x s with
  | error e => simp
  | ok p =>
    obtain ⟨a, s1⟩ := p
    simp only [Except.ok.injEq, Prod.mk.injEq]
    constructor
    · intro h; exact ⟨a, s1, ⟨rfl, rfl⟩, h⟩
    · rintro ⟨_, _, ⟨rfl, rfl⟩, h⟩; exact h

/-- Take a sequence of two computations apart. -/
macro "mbind " h:ident " with " a:ident s:ident h1:ident : tactic =>
  `(tactic| (replace $h := M.bind_ok.mp $h; obtain ⟨$a:ident, $s:ident, $h1:ident, $h:ident⟩ := $h))

theorem M.pure_ok {α : Type} {a b : α} {s s' : Tok} : (pure a : M α) s = .ok (b, s') ↔ b = a ∧ s' = s := by
  show Except.ok (a, s) = .ok (b, s') ↔ _
  simp only [Except.ok.injEq, Prod.mk.injEq]
  exact ⟨fun h => ⟨h.1.symm, h.2.symm⟩, fun h => ⟨h.1.symm, h.2.symm⟩⟩

theorem lift_ok {α : Type} {r : Res α} {a : α} {s s' : Tok} : lift r s = .ok (a, s') ↔ r = .ok a ∧ s' = s := by
  unfold lift
  cases r with
  | error e => simp
  | ok b =>
    simp only [Except.ok.injEq, Prod.mk.injEq]
    exact ⟨fun h => ⟨h.1, h.2.symm⟩, fun h => ⟨h.1, h.2.symm⟩⟩

/-- Drop a `lift`. -/
macro "mlift " h:ident : tactic => `(tactic| (replace $h := lift_ok.mp $h; obtain ⟨$h:ident, e⟩ := $h; subst e))

theorem fail_ok {α : Type} {e : Err} {s : Tok} {r : α × Tok} : fail e s = .ok r ↔ False := by
  simp [fail]

theorem onStore_ok {α : Type} {f : Store SKey SVal → Store SKey SVal × Res α} {s s' : Tok} {a : α} :
    onStore f s = .ok (a, s') ↔ ∃ st, f s.st = (st, .ok a) ∧ s' = { s with st := st } := by
  unfold onStore
  split
  · rename_i h; rw [h]; simp
  · rename_i st b h; rw [h]; simp only [Except.ok.injEq, Prod.mk.injEq]
    constructor
    · rintro ⟨rfl, rfl⟩; exact ⟨st, ⟨rfl, rfl⟩, rfl⟩
    · rintro ⟨st', ⟨rfl, rfl⟩, rfl⟩; exact ⟨rfl, rfl⟩

/-- The state changed at most in its ledger, and stays in good order. -/
structure To (E : SEnv) (s s' : Tok) (L : Led) : Prop where
  ok : StOk E s'.st
  led : led E s' = L
  events : s'.events = s.events
  auths : s'.auths = s.auths

theorem To.trans {E : SEnv} {a b c : Tok} {L1 L2 : Led} (h1 : To E a b L1) (h2 : To E b c L2) : To E a c L2 :=
  ⟨h2.ok, h2.led, h2.events.trans h1.events, h2.auths.trans h1.auths⟩

theorem To.refl {E : SEnv} {s : Tok} (h : StOk E s.st) : To E s s (Sac.led E s) := ⟨h, rfl, rfl, rfl⟩

theorem stok_of {E : SEnv} {s s' : Store SKey SVal} {L} (h : StOk E s) (m : Moved E.sto s s' L) : StOk E s' :=
  ⟨by rw [m.mode]; exact h.1, m.ok⟩

theorem has_ok {E : SEnv} {s s' : Tok} {k : SKey} {b : Bool} (hs : StOk E s.st)
    (h : onStore (fun st => has E.sto st k) s = .ok (b, s')) : To E s s' (led E s) ∧ b = (led E s k).isSome := by
  obtain ⟨st, h1, rfl⟩ := onStore_ok.mp h
  obtain ⟨st', hsame, h2, -⟩ := has_spec hs.1 hs.2 k
  rw [h1] at h2
  simp only [Prod.mk.injEq] at h2
  obtain ⟨rfl, h2⟩ := h2
  refine ⟨⟨stok_of hs hsame.moved, hsame.abs, rfl, rfl⟩, ?_⟩
  unfold readAt at h2
  split at h2
  · rename_i e he
    cases h2
    split at he
    · split at he
      · cases he; rfl
      · cases he
    · cases he
  · cases h2

theorem getEntry_ok {E : SEnv} {s s' : Tok} {k : SKey} {e : Entry SVal} (hs : StOk E s.st)
    (h : onStore (fun st => getEntry E.sto st k) s = .ok (e, s')) : To E s s' (led E s) ∧ led E s k = some e := by
  obtain ⟨st, h1, rfl⟩ := onStore_ok.mp h
  obtain ⟨st', hsame, h2, -⟩ := getEntry_spec hs.1 hs.2 k
  rw [h1] at h2
  simp only [Prod.mk.injEq] at h2
  obtain ⟨rfl, h2⟩ := h2
  refine ⟨⟨stok_of hs hsame.moved, hsame.abs, rfl, rfl⟩, ?_⟩
  unfold getAt readAt at h2
  split at h2
  · cases h2
  · cases h2
  · rename_i e' he
    cases h2
    split at he
    · split at he
      · simp only [Except.ok.injEq] at he; exact he
      · cases he
    · cases he

theorem tryGet_ok {E : SEnv} {s s' : Tok} {k : SKey} {e : Option (Entry SVal)} (hs : StOk E s.st)
    (h : onStore (fun st => tryGet E.sto st k) s = .ok (e, s')) : To E s s' (led E s) ∧ e = led E s k := by
  obtain ⟨st, h1, rfl⟩ := onStore_ok.mp h
  obtain ⟨st', hsame, h2, -⟩ := tryGet_spec hs.1 hs.2 k
  rw [h1] at h2
  simp only [Prod.mk.injEq] at h2
  obtain ⟨rfl, h2⟩ := h2
  refine ⟨⟨stok_of hs hsame.moved, hsame.abs, rfl, rfl⟩, ?_⟩
  unfold readAt at h2
  split at h2
  · split at h2
    · cases h2; rfl
    · cases h2
  · cases h2

theorem tryGetData_ok {E : SEnv} {s s' : Tok} {k : SKey} {v : Option SVal} (hs : StOk E s.st)
    (h : tryGetData E k s = .ok (v, s')) : To E s s' (led E s) ∧ v = valueOf (led E s k) := by
  unfold tryGetData at h
  obtain ⟨b, s1, h1, h2⟩ := M.bind_ok.mp h
  obtain ⟨q1, rfl⟩ := has_ok hs h1
  split at h2
  · obtain ⟨e, s2, h3, h4⟩ := M.bind_ok.mp h2
    obtain ⟨q2, he⟩ := getEntry_ok q1.ok h3
    obtain ⟨rfl, rfl⟩ := M.pure_ok.mp h4
    rw [q1.led] at q2 he
    exact ⟨q1.trans q2, by rw [he]; rfl⟩
  · rename_i hn
    obtain ⟨rfl, rfl⟩ := M.pure_ok.mp h2
    refine ⟨q1, ?_⟩
    cases hl : led E s k with
    | none => rfl
    | some e => rw [hl] at hn; simp at hn

theorem tryGetClassic_ok {E : SEnv} {s s' : Tok} {k : SKey} {v : Option SVal} (hs : StOk E s.st)
    (h : tryGetClassic E k s = .ok (v, s')) : To E s s' (led E s) ∧ v = valueOf (led E s k) := by
  unfold tryGetClassic at h
  obtain ⟨e, s1, h1, h2⟩ := M.bind_ok.mp h
  obtain ⟨q1, rfl⟩ := tryGet_ok hs h1
  obtain ⟨rfl, rfl⟩ := M.pure_ok.mp h2
  exact ⟨q1, rfl⟩

/-- The lifetime of an entry after a write: kept, or the minimum for a new entry. -/
def lifeAfter (E : SEnv) (k : SKey) (e : Option (Entry SVal)) : Option (Option Nat) :=
  match e with
  | some (_, l) => some l
  | none => match newLiveUntil E.sto k with | .ok l => some l | .error _ => none

theorem putData_ok {E : SEnv} {s s' : Tok} {k : SKey} {v : SVal} {u : Unit} (hs : StOk E s.st)
    (h : putData E k v s = .ok (u, s')) :
    ∃ l, lifeAfter E k (led E s k) = some l ∧ To E s s' ((led E s).set k (some (v, l))) := by
  unfold putData at h
  obtain ⟨st, h1, rfl⟩ := onStore_ok.mp h
  obtain ⟨st', hm, h2, -⟩ := write_spec hs.1 hs.2 k (fun _ => v)
  rw [h1] at h2
  simp only [Prod.mk.injEq] at h2
  obtain ⟨rfl, h2⟩ := h2
  cases hu : updateAt E.sto (permOf s.st.mode s.st.footprint) (absMap E.sto s.st.mode s.st.map) k (fun _ => v) with
  | error e => rw [hu] at h2; cases h2
  | ok L =>
    rw [hu] at hm
    have hL : ∃ l, lifeAfter E k (led E s k) = some l ∧ L = (led E s).set k (some (v, l)) := by
      unfold updateAt at hu
      split at hu
      · cases hu
      · rename_i v0 l hr
        have hk : led E s k = some (v0, l) := by
          unfold readAt at hr
          split at hr
          · split at hr
            · simp only [Except.ok.injEq] at hr; exact hr
            · cases hr
          · cases hr
        refine ⟨l, by rw [hk]; rfl, ?_⟩
        unfold writeAt at hu
        split at hu
        · split at hu
          · cases hu
          · split at hu
            · cases hu; rfl
            · cases hu
        · cases hu
      · rename_i hr
        have hk : led E s k = none := by
          unfold readAt at hr
          split at hr
          · split at hr
            · simp only [Except.ok.injEq] at hr; exact hr
            · cases hr
          · cases hr
        split at hu
        · cases hu
        · rename_i l hl
          refine ⟨l, by rw [hk]; simp [lifeAfter, hl], ?_⟩
          unfold writeAt at hu
          split at hu
          · split at hu
            · cases hu
            · split at hu
              · cases hu; rfl
              · cases hu
          · cases hu
    obtain ⟨l, hl, rfl⟩ := hL
    exact ⟨l, hl, stok_of hs hm, hm.abs, rfl, rfl⟩

theorem liveEntry_classic {E : SEnv} {k : SKey} (hk : sacKeys.durability k = none) (v : SVal) :
    LiveEntry E.sto k (some (v, none)) := by
  unfold LiveEntry
  simp [SEnv.sto, hk]

theorem putClassic_ok {E : SEnv} {s s' : Tok} {k : SKey} {v : SVal} {u : Unit} (hk : sacKeys.durability k = none)
    (hs : StOk E s.st) (h : putClassic E k v s = .ok (u, s')) :
    To E s s' ((led E s).set k (some (v, none))) := by
  unfold putClassic at h
  obtain ⟨st, h1, rfl⟩ := onStore_ok.mp h
  obtain ⟨st', hm, h2, -⟩ := putOpt_spec hs.2 k (liveEntry_classic (E := E) hk v)
  rw [h1] at h2
  simp only [Prod.mk.injEq] at h2
  obtain ⟨rfl, h2⟩ := h2
  cases hu : writeAt E.sto (permOf s.st.mode s.st.footprint) (absMap E.sto s.st.mode s.st.map) k (some (v, none)) with
  | error e => rw [hu] at h2; cases h2
  | ok L =>
    rw [hu] at hm
    have hL : L = (led E s).set k (some (v, none)) := by
      unfold writeAt at hu
      split at hu
      · split at hu
        · cases hu
        · split at hu
          · cases hu; rfl
          · cases hu
      · cases hu
    subst hL
    exact ⟨stok_of hs hm, hm.abs, rfl, rfl⟩

theorem extendData_ok {E : SEnv} {s s' : Tok} {k : SKey} {t x : Nat} {u : Unit} (htx : ¬ t > x) (hs : StOk E s.st)
    (h : extendData E k t x s = .ok (u, s')) :
    ∃ e e', led E s k = some e ∧ extended E.sto k t x e = .ok e' ∧ To E s s' ((led E s).set k (some e')) := by
  unfold extendData at h
  obtain ⟨st, h1, rfl⟩ := onStore_ok.mp h
  obtain ⟨st', hm, h2, -⟩ := extendTtl_spec hs.1 hs.2 k t x htx
  rw [h1] at h2
  simp only [Prod.mk.injEq] at h2
  obtain ⟨rfl, h2⟩ := h2
  cases hu : extendAt E.sto (permOf s.st.mode s.st.footprint) (absMap E.sto s.st.mode s.st.map) k (extended E.sto k t x) with
  | error e => rw [hu] at h2; cases h2
  | ok L =>
    rw [hu] at hm
    unfold extendAt at hu
    split at hu
    · cases hu
    · rename_i e he
      have hk : led E s k = some e := by
        unfold getAt readAt at he
        split at he
        · cases he
        · cases he
        · rename_i e' hr
          cases he
          split at hr
          · split at hr
            · simp only [Except.ok.injEq] at hr; exact hr
            · cases hr
          · cases hr
      split at hu
      · cases hu
      · rename_i e' he'
        cases hu
        exact ⟨e, e', hk, he', stok_of hs hm, hm.abs, rfl, rfl⟩

end Soroban.Sac
