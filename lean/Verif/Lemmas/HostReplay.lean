import Verif.Lemmas.HostStore
import Verif.Props.Storage
import Verif.Lemmas.StorageRec
/-! A host in recording mode and a host in enforcing mode, with a footprint that is large enough, do the same. -/
namespace Soroban.Host
open Soroban Soroban.Auth Soroban.Storage Soroban.Storage.Spec Soroban.Props

/-- The same environment, with the code of recording mode compiled in or not. -/
def HEnv.feat (E : HEnv) (b : Bool) : HEnv := { E with sto := { E.sto with feature := b } }

/-- The state of the host except its storage. -/
structure Core where
  events : List (Ev × Bool)
  auth : Mgr
  ctx : List Ctx
  trace : List (List (Option Nat × Name))
  fatal : Bool

def Host.core (s : Host) : Core := ⟨s.events, s.auth, s.ctx, s.trace, s.fatal⟩
def Host.setCore (s : Host) (c : Core) : Host :=
  { st := s.st, events := c.events, auth := c.auth, ctx := c.ctx, trace := c.trace, fatal := c.fatal }

/-- A host in recording mode. -/
structure ROk (E : HEnv) (src : LKey → Option (Entry LVal)) (s : Host) : Prop where
  ok : StOk E s.st
  inv : RecInv E.sto src s.st

theorem ROk.mode {E : HEnv} {src : LKey → Option (Entry LVal)} {s : Host} (h : ROk E src s) : s.st.mode = .recording src := h.inv.mode

/-- A host in recording mode and a host in enforcing mode in the same state, as far as declared keys go. -/
structure Sim (E : HEnv) (b : Bool) (F : FMap LKey Access) (s s' : Host) : Prop where
  ok : StOk (E.feat b) s'.st
  mode : s'.st.mode = .enforcing
  fp : s'.st.footprint = F
  agree : Agree F (ledger E s.st) (ledger (E.feat b) s'.st)
  core : s'.core = s.core

/-- From a state in recording mode: the footprint grows, and in a related state in enforcing mode the same happens, if the
footprint is enough. -/
structure At {α : Type} (E : HEnv) (b : Bool) (src : LKey → Option (Entry LVal)) (F : FMap LKey Access) (s : Host)
    (r : Host × Res α) (r' : Host → Host × Res α) : Prop where
  ok : ROk E src r.1
  fp : FpLe s.st.footprint r.1.st.footprint
  sim : ∀ s', Sim E b F s s' → FpLe r.1.st.footprint F → (r' s').2 = r.2 ∧ Sim E b F r.1 (r' s').1

def Lock {α : Type} (E : HEnv) (b : Bool) (src : LKey → Option (Entry LVal)) (F : FMap LKey Access)
    (f f' : Host → Host × Res α) : Prop := ∀ s, ROk E src s → At E b src F s (f s) f'

/-- Goes on with the result of a host function, or returns its error. -/
def bindH {α β : Type} (r : Host × Res α) (k : α → Host → Host × Res β) : Host × Res β :=
  match r.2 with
  | .error e => (r.1, .error e)
  | .ok a => k a r.1

variable {E : HEnv} {b : Bool} {src : LKey → Option (Entry LVal)} {F : FMap LKey Access} {α β : Type}

/-- One host function after another, if something is known of the first result. -/
theorem Lock.bindP {f f' : Host → Host × Res α} {g g' : α → Host → Host × Res β} (P : α → Prop) (h : Lock E b src F f f')
    (hP : ∀ s a, ROk E src s → (f s).2 = .ok a → P a) (hg : ∀ a, P a → Lock E b src F (g a) (g' a)) :
    Lock E b src F (fun s => bindH (f s) g) (fun s => bindH (f' s) g') := by
  intro s hs
  obtain ⟨h1, h2, h3⟩ := h s hs
  simp only [bindH]
  cases hr : (f s).2 with
  | error e =>
    refine ⟨h1, h2, fun s' hs' hF => ?_⟩
    obtain ⟨i1, i2⟩ := h3 s' hs' hF
    rw [hr] at i1
    simp only [i1]
    exact ⟨trivial, i2⟩
  | ok a =>
    obtain ⟨j1, j2, j3⟩ := hg a (hP s a hs hr) _ h1
    refine ⟨j1, h2.trans j2, fun s' hs' hF => ?_⟩
    obtain ⟨i1, i2⟩ := h3 s' hs' (j2.trans hF)
    rw [hr] at i1
    simp only [i1]
    exact j3 _ i2 hF

theorem Lock.bind {f f' : Host → Host × Res α} {g g' : α → Host → Host × Res β} (h : Lock E b src F f f')
    (hg : ∀ a, Lock E b src F (g a) (g' a)) :
    Lock E b src F (fun s => bindH (f s) g) (fun s => bindH (f' s) g') :=
  h.bindP (fun _ => True) (fun _ _ _ _ => trivial) (fun a _ => hg a)

/-- Results are mapped in the same way. -/
theorem Lock.map {f f' : Host → Host × Res α} (h : Lock E b src F f f') (g : Res α → Res β) :
    Lock E b src F (fun s => ((f s).1, g (f s).2)) (fun s => ((f' s).1, g (f' s).2)) := by
  intro s hs
  obtain ⟨h1, h2, h3⟩ := h s hs
  refine ⟨h1, h2, fun s' hs' hF => ?_⟩
  obtain ⟨i1, i2⟩ := h3 s' hs' hF
  exact ⟨by rw [i1], i2⟩

/-- What a host function does may depend on the state except the storage. -/
theorem Lock.dep {f f' : Core → Host → Host × Res α} (h : ∀ c, Lock E b src F (f c) (f' c)) :
    Lock E b src F (fun s => f s.core s) (fun s => f' s.core s) := by
  intro s hs
  obtain ⟨h1, h2, h3⟩ := h s.core s hs
  refine ⟨h1, h2, fun s' hs' hF => ?_⟩
  simp only [hs'.core]
  exact h3 s' hs' hF

theorem Lock.pure (r : Res α) : Lock E b src F (fun s => (s, r)) (fun s => (s, r)) :=
  fun _ hs => ⟨hs, FpLe.refl _, fun _ hs' _ => ⟨rfl, hs'⟩⟩

theorem Lock.set {f f' : Host → Host × Res α} (h : Lock E b src F f f') (c : Core) :
    Lock E b src F (fun s => f (s.setCore c)) (fun s => f' (s.setCore c)) := by
  intro s hs
  obtain ⟨h1, h2, h3⟩ := h (s.setCore c) ⟨hs.ok, hs.inv⟩
  exact ⟨h1, h2, fun s' hs' hF => h3 _ ⟨hs'.ok, hs'.mode, hs'.fp, hs'.agree, rfl⟩ hF⟩

/-- What is left of the state except the storage after a host function. -/
theorem Lock.post {f f' : Host → Host × Res α} (h : Lock E b src F f f') (g : Res α → Core → Core) :
    Lock E b src F (fun s => ((f s).1.setCore (g (f s).2 (f s).1.core), (f s).2))
      (fun s => ((f' s).1.setCore (g (f' s).2 (f' s).1.core), (f' s).2)) := by
  intro s hs
  obtain ⟨h1, h2, h3⟩ := h s hs
  refine ⟨⟨h1.ok, h1.inv⟩, h2, fun s' hs' hF => ?_⟩
  obtain ⟨i1, i2⟩ := h3 s' hs' hF
  exact ⟨i1, i2.ok, i2.mode, i2.fp, i2.agree, by rw [i1, i2.core]; rfl⟩

theorem Lock.congr {f f' g g' : Host → Host × Res α} (h : Lock E b src F f f') (h1 : ∀ s, g s = f s) (h2 : ∀ s, g' s = f' s) :
    Lock E b src F g g' := by
  rw [show g = f from funext h1, show g' = f' from funext h2]; exact h

/-- Storage functions. -/
theorem lock_st {o : Op LKey LVal} (ho : OpOk E.sto o) {f f' : Store LKey LVal → Store LKey LVal × Res α} {w : α → Out LVal}
    (hw : ∀ x y, w x = w y → x = y) (h1 : ∀ m, step E.sto m o = wrap m w (f m.st))
    (h2 : ∀ m, step (E.feat b).sto m o = wrap m w (f' m.st)) (hi : ∀ st, RecInv E.sto src st → RecInv E.sto src (f st).1) :
    Lock E b src F (fun s => liftSt s f) (fun s => liftSt s f') := by
  intro s hs
  have hO : Ok E.sto (⟨s.st, []⟩ : Machine LKey LVal) := ⟨hs.ok.mode, hs.ok.map, by simp⟩
  have hst := step_ok hO ho
  have e1 := h1 ⟨s.st, []⟩
  have hm : (step E.sto (⟨s.st, []⟩ : Machine LKey LVal) o).1.st = (f s.st).1 := by rw [e1]; rfl
  refine ⟨⟨⟨hs.ok.keys, ?_, ?_⟩, ?_⟩, ?_, ?_⟩
  · have := hst.ok.mode; rwa [hm] at this
  · have := hst.ok.cur; rwa [hm] at this
  · exact hi _ hs.inv
  · have := hst.fp; rwa [hm] at this
  · intro s' hs' hF
    have hO' : Ok (E.feat b).sto (⟨s'.st, []⟩ : Machine LKey LVal) := ⟨hs'.ok.mode, hs'.ok.map, by simp⟩
    have ho' : OpOk (E.feat b).sto o := by cases o <;> exact ho
    have hst' := step_ok hO' ho'
    have e2 := h2 ⟨s'.st, []⟩
    have hm' : (step (E.feat b).sto (⟨s'.st, []⟩ : Machine LKey LVal) o).1.st = (f' s'.st).1 := by rw [e2]; rfl
    have hag : AgreeM F (absM E.sto (⟨s.st, []⟩ : Machine LKey LVal)) (absM (E.feat b).sto (⟨s'.st, []⟩ : Machine LKey LVal)) :=
      ⟨hs'.agree, .nil⟩
    obtain ⟨g1, g2⟩ := spec_step_agree (E := E.sto) hag o
    have hc := hst.covers ⟨src, hs.mode⟩ F (by rw [hm]; exact hF)
    rw [hc] at g1 g2
    have hp : permOf s.st.mode s.st.footprint = fun _ _ => true := by rw [hs.mode]; rfl
    have hp' : permOf s'.st.mode s'.st.footprint = allows F := by rw [hs'.mode, hs'.fp]; rfl
    have hsp : ∀ m, Spec.step (E.feat b).sto (allows F) m o = Spec.step E.sto (allows F) m o := by intro m; cases o <;> rfl
    have r1 := hst.res
    have r2 := hst'.res
    have a1 := hst.abs
    have a2 := hst'.abs
    rw [hp] at r1 a1
    rw [hp', hsp] at r2 a2
    have hres : (step (E.feat b).sto (⟨s'.st, []⟩ : Machine LKey LVal) o).2 = (step E.sto (⟨s.st, []⟩ : Machine LKey LVal) o).2 := by
      rw [r1, r2, g1]
    rw [← a1, ← a2] at g2
    refine ⟨?_, ⟨hs'.ok.keys, ?_, ?_⟩, ?_, ?_, ?_, hs'.core⟩
    · rw [e1, e2] at hres
      simp only [wrap] at hres
      show (f' s'.st).2 = (f s.st).2
      cases hx : (f' s'.st).2 <;> cases hy : (f s.st).2 <;> rw [hx, hy] at hres <;>
        simp only [Except.ok.injEq, Except.error.injEq, reduceCtorEq] at hres
      · rw [hres]
      · rw [hw _ _ hres]
    · have := hst'.ok.mode; rwa [hm'] at this
    · have := hst'.ok.cur; rwa [hm'] at this
    · have := hst'.mode; rw [hm'] at this; exact this.trans hs'.mode
    · have := hst'.fpE hs'.mode; rw [hm'] at this; exact this.trans hs'.fp
    · have := g2.L
      simp only [absM, hm, hm'] at this
      exact this

theorem lock_get (k : LKey) : Lock E b src F (fun s => liftSt s (fun st => getEntry E.sto st k))
    (fun s => liftSt s (fun st => getEntry (E.feat b).sto st k)) :=
  lock_st (o := .get k) (w := .entry) trivial (by intro x y h; cases h; rfl) (fun _ => rfl) (fun _ => rfl) (fun _ h => getEntry_rec h k)

theorem lock_has (k : LKey) : Lock E b src F (fun s => liftSt s (fun st => has E.sto st k))
    (fun s => liftSt s (fun st => has (E.feat b).sto st k)) :=
  lock_st (o := .has k) (w := .bool) trivial (by intro x y h; cases h; rfl) (fun _ => rfl) (fun _ => rfl) (fun _ h => has_rec h k)

theorem lock_put (k : LKey) {v : LVal} {l : Option Nat} (hl : LiveEntry E.sto k (some (v, l))) :
    Lock E b src F (fun s => liftSt s (fun st => putOpt E.sto st k (some (v, l))))
    (fun s => liftSt s (fun st => putOpt (E.feat b).sto st k (some (v, l)))) :=
  lock_st (o := .put k v l) (w := fun _ => .unit) hl (by intro x y _; rfl) (fun _ => rfl) (fun _ => rfl) (fun _ h => putOpt_rec h k _)

theorem lock_del (k : LKey) : Lock E b src F (fun s => liftSt s (fun st => putOpt E.sto st k none))
    (fun s => liftSt s (fun st => putOpt (E.feat b).sto st k none)) :=
  lock_st (o := .del k) (w := fun _ => .unit) trivial (by intro x y _; rfl) (fun _ => rfl) (fun _ => rfl) (fun _ h => putOpt_rec h k _)

theorem lock_write (k : LKey) (u : Option LVal → LVal) : Lock E b src F (fun s => liftSt s (fun st => Storage.write E.sto st k u))
    (fun s => liftSt s (fun st => Storage.write (E.feat b).sto st k u)) :=
  lock_st (o := .write k u) (w := fun _ => .unit) trivial (by intro x y _; rfl) (fun _ => rfl) (fun _ => rfl) (fun _ h => write_rec h k u)

theorem lock_extend (k : LKey) (t e : Nat) : Lock E b src F (fun s => liftSt s (fun st => extendTtl E.sto st k t e))
    (fun s => liftSt s (fun st => extendTtl (E.feat b).sto st k t e)) :=
  lock_st (o := .extend k t e) (w := fun _ => .unit) trivial (by intro x y _; rfl) (fun _ => rfl) (fun _ => rfl) (fun _ h => extendTtl_rec h k t e)

theorem lock_extendV2 (k : LKey) (e x y : Nat) : Lock E b src F (fun s => liftSt s (fun st => extendTtlV2 E.sto st k e x y))
    (fun s => liftSt s (fun st => extendTtlV2 (E.feat b).sto st k e x y)) :=
  lock_st (o := .extendV2 k e x y) (w := fun _ => .unit) trivial (by intro x y _; rfl) (fun _ => rfl) (fun _ => rfl) (fun _ h => extendTtlV2_rec h k e x y)

/-! ### instances and code -/

theorem lock_getInstance (c : Nat) : Lock E b src F (fun s => getInstance E s c) (fun s => getInstance (E.feat b) s c) := by
  have h : ∀ E' : HEnv, ∀ s, getInstance E' s c = bindH (liftSt s (fun st => getEntry E'.sto st (.inst c)))
      (fun v s => (s, match v with | (.inst ex m, _) => .ok (ex, m) | _ => .error (.host .storage .internalError))) := by
    intro E' s
    unfold getInstance bindH
    rcases liftSt s (fun st => getEntry E'.sto st (.inst c)) with ⟨s1, e | ⟨v, l⟩⟩
    · rfl
    · cases v <;> rfl
  exact ((lock_get _).bind (fun v => .pure _)).congr (h E) (h (E.feat b))

theorem lock_storeInstance (ex : Option Exec) (m : Option (FMap Nat Nat)) (c : Nat) :
    Lock E b src F (fun s => storeInstance E s ex m c) (fun s => storeInstance (E.feat b) s ex m c) := by
  have h : ∀ E' : HEnv, ∀ s, storeInstance E' s ex m c = bindH (liftSt s (fun st => has E'.sto st (.inst c)))
      (fun t s => if t then bindH (liftSt s (fun st => getEntry E'.sto st (.inst c))) (fun e s =>
          match updInstance ex m e.1 with
          | .error e => (s, .error e)
          | .ok v' => liftSt s (fun st => putOpt E'.sto st (.inst c) (some (v', e.2))))
        else match ex with
        | none => (s, .error (.host .context .internalError))
        | some ex =>
          match newLiveUntil E'.sto (.inst c) with
          | .error e => (s, .error e)
          | .ok l => liftSt s (fun st => putOpt E'.sto st (.inst c) (some (.inst ex (m.getD []), l)))) := by
    intro E' s
    unfold storeInstance bindH
    rcases liftSt s (fun st => has E'.sto st (.inst c)) with ⟨s1, e | t⟩
    · rfl
    · cases t
      · rfl
      · simp only [if_true]
        rcases liftSt s1 (fun st => getEntry E'.sto st (.inst c)) with ⟨s2, e | ⟨v, l⟩⟩
        · rfl
        · rfl
  refine ((lock_has _).bind (fun t => ?_)).congr (h E) (h (E.feat b))
  cases t
  · simp only [Bool.false_eq_true, if_false]
    cases ex with
    | none => exact .pure _
    | some ex =>
      simp only
      rw [show newLiveUntil (E.feat b).sto (.inst c) = newLiveUntil E.sto (.inst c) from rfl]
      cases hl : newLiveUntil E.sto (.inst c) with
      | error e => exact .pure _
      | ok l => exact lock_put _ (newLive_live hl _)
  · simp only [if_true]
    refine (lock_get _).bindP (fun e => LiveEntry E.sto (.inst c) (some e)) (fun s a hs ha => getEntry_live hs.ok ha) ?_
    rintro ⟨v, l⟩ hlive
    simp only
    cases updInstance ex m v with
    | error e => exact .pure _
    | ok v' =>
      refine lock_put _ ?_
      intro v2 l2 d h1 h2
      cases h1
      exact hlive v l d rfl h2

theorem lock_verifyExists (k : LKey) : Lock E b src F (fun s => verifyExists E s k) (fun s => verifyExists (E.feat b) s k) := by
  have h : ∀ E' : HEnv, ∀ s, verifyExists E' s k = bindH (liftSt s (fun st => has E'.sto st k))
      (fun t s => (s, if t then .ok () else .error (.host .storage .missingValue))) := by
    intro E' s
    unfold verifyExists bindH
    rcases liftSt s (fun st => has E'.sto st k) with ⟨s1, e | t⟩
    · rfl
    · cases t <;> rfl
  exact ((lock_has _).bind (fun v => .pure _)).congr (h E) (h (E.feat b))

theorem lock_resolveRef (o : Addr) (t : Nat) : Lock E b src F (fun s => resolveRef E s o t) (fun s => resolveRef (E.feat b) s o t) := by
  have h : ∀ E' : HEnv, ∀ s, resolveRef E' s o t = bindH (liftSt s (fun st => getEntry E'.sto st (.data o (.tag t) .persistent)))
      (fun v s => (s, match v with
        | (.data v, _) => (match E'.hashOf v with | some h => .ok h | none => .error (.host .storage .internalError))
        | _ => .error (.host .storage .internalError))) := by
    intro E' s
    unfold resolveRef bindH
    rcases liftSt s (fun st => getEntry E'.sto st (.data o (.tag t) .persistent)) with ⟨s1, e | ⟨v, l⟩⟩
    · rfl
    · cases v <;> try rfl
      simp only
      split <;> rename_i hh <;> rw [hh]
  exact ((lock_get _).bind (fun v => .pure _)).congr (h E) (h (E.feat b))

theorem lock_wasmHash (ex : Exec) : Lock E b src F (fun s => wasmHash E s ex) (fun s => wasmHash (E.feat b) s ex) := by
  cases ex with
  | wasm h => exact .pure _
  | asset => exact .pure _
  | ref o t =>
    have h : ∀ E' : HEnv, ∀ s, wasmHash E' s (.ref o t) = bindH (resolveRef E' s o t) (fun h s => (s, .ok (some h))) := by
      intro E' s
      simp only [wasmHash, bindH]
      rcases resolveRef E' s o t with ⟨s1, e | v⟩ <;> rfl
    exact ((lock_resolveRef o t).bind (fun v => .pure _)).congr (h E) (h (E.feat b))

theorem lock_loadCode (c : Nat) : Lock E b src F (fun s => loadCode E s c) (fun s => loadCode (E.feat b) s c) := by
  have h : ∀ E' : HEnv, ∀ s, loadCode E' s c = bindH (liftSt s (fun st => getEntry E'.sto st (.code c))) (fun _ s => (s, .ok ())) := by
    intro E' s
    unfold loadCode bindH
    rcases liftSt s (fun st => getEntry E'.sto st (.code c)) with ⟨s1, e | v⟩ <;> rfl
  exact ((lock_get _).bind (fun v => .pure _)).congr (h E) (h (E.feat b))

/-! ### frames -/

def persistC (E : HEnv) (c : Core) (s : Host) : Host × Res Bool :=
  match c.ctx with
  | [] => (s, .error (.host .context .internalError))
  | d :: _ => match d.storage with
    | some (m, true) => match d.cid with
      | none => (s, .error (.host .context .internalError))
      | some id => bindH (storeInstance E s none (some m) id) (fun _ s => (s, .ok true))
    | _ => (s, .ok false)

theorem lock_persist : Lock E b src F (fun s => persist E s) (fun s => persist (E.feat b) s) := by
  have h : ∀ E' : HEnv, ∀ s, persist E' s = persistC E' s.core s := by
    intro E' s
    unfold persistC persist currentContract Host.core
    simp only
    cases hc : s.ctx with
    | nil => rfl
    | cons d ds =>
      simp only
      rcases hd : d.storage with _ | ⟨m, t⟩
      · rfl
      · cases t
        · rfl
        · simp only
          cases d.cid with
          | none => rfl
          | some id =>
            simp only [bindH]
            rcases storeInstance E' s none (some m) id with ⟨s1, e | v⟩ <;> rfl
  refine (Lock.dep (f := persistC E) (f' := persistC (E.feat b)) (fun c => ?_)).congr (h E) (h (E.feat b))
  unfold persistC
  rcases c.ctx with _ | ⟨d, ds⟩
  · exact .pure _
  · simp only
    rcases d.storage with _ | ⟨m, _ | _⟩
    · exact .pure _
    · exact .pure _
    · simp only
      cases d.cid with
      | none => exact .pure _
      | some id => exact (lock_storeInstance _ _ _).bind (fun _ => .pure _)

theorem lock_reloadBelow (id : Nat) (cs : List Ctx) :
    Lock E b src F (fun s => reloadBelow E s id cs) (fun s => reloadBelow (E.feat b) s id cs) := by
  induction cs with
  | nil => exact .pure _
  | cons c cs ih =>
    have h : ∀ E' : HEnv, ∀ s, reloadBelow E' s id (c :: cs) = bindH (reloadBelow E' s id cs) (fun cs' s =>
        if c.cid = some id then bindH (getInstance E' s id) (fun m s => (s, .ok ({ c with storage := some (m.2, false) } :: cs')))
        else (s, .ok (c :: cs'))) := by
      intro E' s
      rw [reloadBelow]
      unfold bindH
      rcases reloadBelow E' s id cs with ⟨s1, e | cs'⟩
      · rfl
      · simp only
        split
        · rcases getInstance E' s1 id with ⟨s2, e | ⟨x, m⟩⟩ <;> rfl
        · rfl
    refine (ih.bind (fun cs' => ?_)).congr (h E) (h (E.feat b))
    split
    · exact (lock_getInstance id).bind (fun _ => .pure _)
    · exact .pure _

theorem lock_setCtx (r : Res α) (cs : List Ctx) :
    Lock E b src F (fun s => ({ s with ctx := cs }, r)) (fun s => ({ s with ctx := cs }, r)) :=
  (Lock.dep (f := fun c s => (s.setCore { c with ctx := cs }, r)) (f' := fun c s => (s.setCore { c with ctx := cs }, r))
    (fun c => (Lock.pure r).set _)).congr (fun _ => rfl) (fun _ => rfl)

def reloadC (E : HEnv) (c : Core) (s : Host) : Host × Res Unit :=
  match c.ctx with
  | [] => (s, .error (.host .context .internalError))
  | d :: cs => match d.cid with
    | none => (s, .error (.host .context .internalError))
    | some id => bindH (reloadBelow E s id cs) (fun cs' s => ({ s with ctx := d :: cs' }, .ok ()))

theorem lock_reload : Lock E b src F (fun s => reload E s) (fun s => reload (E.feat b) s) := by
  have h : ∀ E' : HEnv, ∀ s, reload E' s = reloadC E' s.core s := by
    intro E' s
    unfold reloadC reload Host.core
    simp only
    cases hc : s.ctx with
    | nil => rfl
    | cons d ds =>
      simp only
      cases d.cid with
      | none => rfl
      | some id =>
        simp only [bindH]
        rcases reloadBelow E' s id ds with ⟨s1, e | v⟩ <;> rfl
  refine (Lock.dep (f := reloadC E) (f' := reloadC (E.feat b)) (fun c => ?_)).congr (h E) (h (E.feat b))
  unfold reloadC
  rcases c.ctx with _ | ⟨d, ds⟩
  · exact .pure _
  · simp only
    cases d.cid with
    | none => exact .pure _
    | some id => exact (lock_reloadBelow _ _).bind (fun _ => lock_setCtx _ _)

theorem lock_finish (r : Res RVal) : Lock E b src F (fun s => finish E s r) (fun s => finish (E.feat b) s r) := by
  cases r with
  | error e => exact .pure _
  | ok v =>
    have h : ∀ E' : HEnv, ∀ s, finish E' s (.ok v) = bindH (persist E' s) (fun t s =>
        if t then bindH (reload E' s) (fun _ s => (s, .ok v)) else (s, .ok v)) := by
      intro E' s
      unfold finish bindH
      simp only
      rcases persist E' s with ⟨s1, e | t⟩
      · rfl
      · cases t
        · rfl
        · simp only [if_true]
          rcases reload E' s1 with ⟨s2, e | t⟩ <;> rfl
    refine (lock_persist.bind (fun t => ?_)).congr (h E) (h (E.feat b))
    cases t
    · exact .pure _
    · exact lock_reload.bind (fun _ => .pure _)

/-- The end of a frame. -/
theorem withFrame_eq (E : HEnv) (s : Host) (c : Ctx) (f : Host → Host × Res RVal) : withFrame E s c f =
    if s.ctx.length ≥ depthLimit then (s, .error (.host .context .exceededLimit))
    else
      let e := finish E (f (pushContext s c).1).1 (escalate (f (pushContext s c).1).2)
      let q := popContext e.1 (rollbackIf e.2 (pushContext s c).2)
      match q.2 with
      | .error err => (q.1, .error err)
      | .ok () =>
        if q.1.ctx.length ≠ s.ctx.length then (q.1, .error (.host .context .internalError))
        else (q.1, e.2) := rfl

theorem lock_body {f f' : Host → Host × Res RVal} (h : Lock E b src F f f') :
    Lock E b src F (fun s => finish E (f s).1 (escalate (f s).2)) (fun s => finish (E.feat b) (f' s).1 (escalate (f' s).2)) := by
  intro s hs
  obtain ⟨h1, h2, h3⟩ := h s hs
  obtain ⟨j1, j2, j3⟩ := lock_finish (E := E) (b := b) (F := F) (src := src) (escalate (f s).2) _ h1
  refine ⟨j1, h2.trans j2, fun s' hs' hF => ?_⟩
  obtain ⟨i1, i2⟩ := h3 s' hs' (j2.trans hF)
  simp only [i1]
  exact j3 _ i2 hF

theorem lock_withFrame (c : Ctx) {f f' : Host → Host × Res RVal} (h : Lock E b src F f f') :
    Lock E b src F (fun s => withFrame E s c f) (fun s => withFrame (E.feat b) s c f') := by
  intro s hs
  simp only [withFrame_eq]
  by_cases hd : s.ctx.length ≥ depthLimit
  · simp only [if_pos hd]
    refine ⟨hs, FpLe.refl _, fun s' hs' _ => ?_⟩
    have : s'.ctx = s.ctx := congrArg Core.ctx hs'.core
    rw [this, if_pos hd]
    exact ⟨rfl, hs'⟩
  · simp only [if_neg hd]
    have hp : ROk E src (pushContext s c).1 := ⟨hs.ok, hs.inv⟩
    obtain ⟨h1, h2, h3⟩ := lock_body h _ hp
    simp only at h1
    have key : ∀ s', Sim E b F s s' → FpLe (finish E (f (pushContext s c).1).1 (escalate (f (pushContext s c).1).2)).1.st.footprint F →
        (finish (E.feat b) (f' (pushContext s' c).1).1 (escalate (f' (pushContext s' c).1).2)).2 =
          (finish E (f (pushContext s c).1).1 (escalate (f (pushContext s c).1).2)).2 ∧
        Sim E b F (finish E (f (pushContext s c).1).1 (escalate (f (pushContext s c).1).2)).1
          (finish (E.feat b) (f' (pushContext s' c).1).1 (escalate (f' (pushContext s' c).1).2)).1 := by
      intro s' hs' hF
      refine h3 _ ⟨hs'.ok, hs'.mode, hs'.fp, hs'.agree, ?_⟩ hF
      have hc := hs'.core
      simp only [Host.core, Core.mk.injEq] at hc
      obtain ⟨c1, c2, c3, c4, c5⟩ := hc
      simp only [pushContext, Host.core, c1, c2, c3, c4, c5]
    have hrp : ∀ s', Sim E b F s s' → (pushContext s' c).2.events = (pushContext s c).2.events ∧
        (pushContext s' c).2.auth = (pushContext s c).2.auth := by
      intro s' hs'
      have hc := hs'.core
      simp only [Host.core, Core.mk.injEq] at hc
      obtain ⟨c1, c2, c3, c4, c5⟩ := hc
      simp only [pushContext, c1, c2, and_self]
    have hlen : ∀ s', Sim E b F s s' → s'.ctx.length = s.ctx.length := fun s' hs' => by
      rw [show s'.ctx = s.ctx from congrArg Core.ctx hs'.core]
    have hm : (pushContext s c).2.map = s.st.map := rfl
    have hm' : ∀ s', (pushContext s' c).2.map = s'.st.map := fun _ => rfl
    have h2' : FpLe s.st.footprint (finish E (f (pushContext s c).1).1 (escalate (f (pushContext s c).1).2)).1.st.footprint := h2
    generalize (pushContext s c).2 = rp at *
    generalize finish E (f (pushContext s c).1).1 (escalate (f (pushContext s c).1).2) = x at *
    clear h3 h2
    have hgen : ∀ (o : Option RollbackPoint), (∀ p, o = some p → p.map = s.st.map) →
        ROk E src (popContext x.1 o).1 ∧ FpLe s.st.footprint (popContext x.1 o).1.st.footprint ∧
        (popContext x.1 o).1.st.footprint = x.1.st.footprint := by
      intro o ho
      unfold popContext
      split
      · exact ⟨h1, h2', rfl⟩
      · cases o with
        | none => exact ⟨⟨h1.ok, h1.inv⟩, h2', rfl⟩
        | some p =>
          refine ⟨⟨⟨h1.ok.keys, h1.ok.mode, ?_⟩, ⟨h1.mode, h1.inv.nodup, ?_, h1.inv.exp⟩⟩, h2', rfl⟩
          · simp only
            rw [ho p rfl, h1.mode, ← hs.mode]
            exact hs.ok.map.mono (fun hh => by rw [hs.mode] at hh; cases hh)
          · intro k hk
            simp only at hk ⊢
            rw [ho p rfl] at hk
            exact h2' k .readOnly (hs.inv.decl k hk)
    have hsim : ∀ s' x', Sim E b F s s' → Sim E b F x.1 x' → ∀ o o', (o = none ∧ o' = none ∨ ∃ p p', o = some p ∧ o' = some p' ∧
        p.map = s.st.map ∧ p'.map = s'.st.map ∧ p'.events = p.events ∧ p'.auth = p.auth) →
        (popContext x' o').2 = (popContext x.1 o).2 ∧ Sim E b F (popContext x.1 o).1 (popContext x' o').1 := by
      intro s' x' hs' hx' o o' ho
      have hc := hx'.core
      simp only [Host.core, Core.mk.injEq] at hc
      obtain ⟨c1, c2, c3, c4, c5⟩ := hc
      unfold popContext
      rw [c3]
      cases hcx : x.1.ctx with
      | nil => exact ⟨rfl, hx'⟩
      | cons d ds =>
        simp only
        rcases ho with ⟨rfl, rfl⟩ | ⟨p, p', rfl, rfl, m1, m2, m3, m4⟩
        · simp only [c2]
          exact ⟨trivial, hx'.ok, hx'.mode, hx'.fp, hx'.agree, by simp only [Host.core, c1, c4, c5]⟩
        · simp only [c2, m4]
          refine ⟨trivial, ⟨hx'.ok.keys, hx'.ok.mode, ?_⟩, hx'.mode, hx'.fp, ?_, by simp only [Host.core, c1, c4, c5, m3]⟩
          · simp only
            rw [m2, hx'.mode, hx'.fp, ← hs'.mode, ← hs'.fp]
            exact hs'.ok.map
          · simp only [ledger]
            rw [m1, m2, hx'.mode, h1.mode, ← hs'.mode, ← hs.mode]
            exact hs'.agree
    have hrb : ∀ (r : Res RVal) p, rollbackIf r rp = some p → p.map = s.st.map := by
      intro r p hrp'
      cases r <;> simp only [rollbackIf, Option.some.injEq, reduceCtorEq] at hrp'
      rw [← hrp', hm]
    obtain ⟨g1, g2, g3⟩ := hgen (rollbackIf x.2 rp) (hrb x.2)
    have hout : ∀ (q : Host × Res Unit) (n : Nat) (r : Res RVal),
        (match q.2 with
          | .error err => (q.1, (.error err : Res RVal))
          | .ok () => if q.1.ctx.length ≠ n then (q.1, .error (.host .context .internalError)) else (q.1, r)) =
        (q.1, match q.2 with
          | .error err => (.error err : Res RVal)
          | .ok () => if q.1.ctx.length ≠ n then .error (.host .context .internalError) else r) := by
      intro q n r
      rcases q with ⟨q1, e | u⟩
      · rfl
      · simp only; split <;> rfl
    simp only [hout]
    refine ⟨g1, g2, fun s' hs' hF => ?_⟩
    have hd' : ¬ s'.ctx.length ≥ depthLimit := by rw [hlen s' hs']; exact hd
    simp only [if_neg hd', hout]
    rw [g3] at hF
    obtain ⟨k1, k2⟩ := key s' hs' hF
    obtain ⟨e1, e2⟩ := hrp s' hs'
    generalize finish (E.feat b) (f' (pushContext s' c).1).1 (escalate (f' (pushContext s' c).1).2) = x' at *
    rw [k1]
    obtain ⟨m1, m2⟩ := hsim s' x'.1 hs' k2 (rollbackIf x.2 rp) (rollbackIf x.2 (pushContext s' c).2) (by
      cases x.2 with
      | ok v => exact Or.inl ⟨rfl, rfl⟩
      | error e => exact Or.inr ⟨_, _, rfl, rfl, hm, hm' s', e1, e2⟩)
    refine ⟨?_, m2⟩
    rw [m1, hlen s' hs', show (popContext x'.1 (rollbackIf x.2 (pushContext s' c).2)).1.ctx = (popContext x.1 (rollbackIf x.2 rp)).1.ctx from
      congrArg Core.ctx m2.core]

/-! ### calls -/

theorem lock_callContractFn (id : Nat) (fn : Name) {f f' : Host → Host × Res RVal} (h : Lock E b src F f f') :
    Lock E b src F (fun s => callContractFn E s id fn f) (fun s => callContractFn (E.feat b) s id fn f') := by
  have he : ∀ (E' : HEnv) g, ∀ s, callContractFn E' s id fn g = bindH (getInstance E' s id) (fun x s =>
      bindH (wasmHash E' s x.1) (fun o s => match o with
        | none => withFrame E' s { cid := some id, fn := fn, inst := x.2, storage := none } g
        | some c => bindH (loadCode E' s c) (fun _ s =>
          withFrame E' s { cid := some id, fn := fn, inst := x.2, storage := none } g))) := by
    intro E' g s
    unfold callContractFn bindH
    rcases getInstance E' s id with ⟨s1, e | ⟨ex, m⟩⟩
    · rfl
    · simp only
      rcases wasmHash E' s1 ex with ⟨s2, e | o⟩
      · rfl
      · cases o with
        | none => rfl
        | some c =>
          simp only
          rcases loadCode E' s2 c with ⟨s3, e | u⟩ <;> rfl
  refine ((lock_getInstance id).bind (fun x => (lock_wasmHash x.1).bind (fun o => ?_))).congr (he E f) (he (E.feat b) f')
  cases o with
  | none => exact lock_withFrame _ h
  | some c => exact (lock_loadCode c).bind (fun _ => lock_withFrame _ h)

def callNC (E : HEnv) (id : Nat) (fn : Name) (mode : Reentry) (internal : Bool) (f : Host → Host × Res RVal) (c : Core)
    (s : Host) : Host × Res RVal :=
  if internal = false ∧ reserved fn = true then (s, .error (.host .context .invalidAction))
  else match mode with
    | .allowed => callContractFn E s id fn f
    | .prohibited => match reentryDistance id c.ctx with
      | none => callContractFn E s id fn f
      | some _ => (s, .error (.host .context .invalidAction))
    | .selfAllowed => match reentryDistance id c.ctx with
      | none => callContractFn E s id fn f
      | some 0 => bindH (persist E s) (fun _ s => callContractFn E s id fn f)
      | some (_ + 1) => (s, .error (.host .context .invalidAction))

theorem lock_callN (id : Nat) (fn : Name) (mode : Reentry) (internal : Bool) {f f' : Host → Host × Res RVal}
    (h : Lock E b src F f f') :
    Lock E b src F (fun s => callN E s id fn mode internal f) (fun s => callN (E.feat b) s id fn mode internal f') := by
  have he : ∀ (E' : HEnv) g, ∀ s, callN E' s id fn mode internal g = callNC E' id fn mode internal g s.core s := by
    intro E' g s
    unfold callN callNC Host.core
    simp only
    split
    · rfl
    · cases mode with
      | allowed => rfl
      | prohibited => rfl
      | selfAllowed =>
        simp only
        cases reentryDistance id s.ctx with
        | none => rfl
        | some n =>
          cases n with
          | succ n => rfl
          | zero =>
            simp only [bindH]
            rcases persist E' s with ⟨s1, e | t⟩ <;> rfl
  refine (Lock.dep (f := callNC E id fn mode internal f) (f' := callNC (E.feat b) id fn mode internal f') (fun c => ?_)).congr
    (he E f) (he (E.feat b) f')
  unfold callNC
  split
  · exact .pure _
  · cases mode with
    | allowed => exact lock_callContractFn _ _ h
    | prohibited =>
      simp only
      cases reentryDistance id c.ctx with
      | none => exact lock_callContractFn _ _ h
      | some n => exact .pure _
    | selfAllowed =>
      simp only
      cases reentryDistance id c.ctx with
      | none => exact lock_callContractFn _ _ h
      | some n =>
        cases n with
        | succ n => exact .pure _
        | zero => exact lock_persist.bind (fun _ => lock_callContractFn _ _ h)

theorem lock_tryCall (id : Nat) (fn : Name) {f f' : Host → Host × Res RVal} (h : Lock E b src F f f') :
    Lock E b src F (fun s => tryCall E s id fn f) (fun s => tryCall (E.feat b) s id fn f') :=
  (lock_callN id fn .prohibited false h).map tryResult

/-! ### authorization -/

theorem lock_consumeNonce (a : Addr) (n : Int) {l : Nat} (hl : E.sto.li.seq ≤ l) :
    Lock E b src F (fun s => consumeNonce E s a n l) (fun s => consumeNonce (E.feat b) s a n l) := by
  have he : ∀ (E' : HEnv), ∀ s, consumeNonce E' s a n l = match E'.sto.li.minLiveUntil .temporary with
      | none => (s, .error (.host .context .internalError))
      | some m => bindH (liftSt s (fun st => has E'.sto st (.nonce a n))) (fun t s => if t then (s, .error (.host .auth .existingValue))
          else liftSt s (fun st => putOpt E'.sto st (.nonce a n) (some (.void, some (max l m))))) := by
    intro E' s
    unfold consumeNonce
    cases E'.sto.li.minLiveUntil .temporary with
    | none => rfl
    | some m =>
      simp only [bindH]
      rcases liftSt s (fun st => has E'.sto st (.nonce a n)) with ⟨s1, e | t⟩
      · rfl
      · cases t <;> rfl
  refine Lock.congr ?_ (he E) (he (E.feat b))
  rw [show (E.feat b).sto.li.minLiveUntil .temporary = E.sto.li.minLiveUntil .temporary from rfl]
  cases E.sto.li.minLiveUntil .temporary with
  | none => exact .pure _
  | some m =>
    refine (lock_has _).bind (fun t => ?_)
    cases t
    · refine lock_put _ ?_
      intro v l' d hv _
      cases hv
      exact ⟨_, rfl, Nat.le_trans hl (Nat.le_max_left _ _)⟩
    · exact .pure _

theorem lock_verifyNonce (t : Acct) : Lock E b src F (fun s => verifyNonce E s t) (fun s => verifyNonce (E.feat b) s t) := by
  unfold verifyNonce
  rw [show (E.feat b).sto.li = E.sto.li from rfl]
  by_cases h1 : t.source = true
  · simp only [if_pos h1]; exact .pure _
  · simp only [if_neg h1]
    rcases t.nonce with _ | ⟨n, l⟩
    · exact .pure _
    · simp only
      by_cases h2 : E.sto.li.seq > l
      · simp only [if_pos h2]; exact .pure _
      · simp only [if_neg h2]
        cases E.sto.li.maxLiveUntil with
        | none => exact .pure _
        | some mx =>
          simp only
          by_cases h3 : l > mx
          · simp only [if_pos h3]; exact .pure _
          · simp only [if_neg h3]; exact lock_consumeNonce _ _ (by omega)

theorem lock_authenticate (i : Nat) (t : Acct) {f f' : Host → Host × Res RVal} (h : Lock E b src F f f') :
    Lock E b src F (fun s => authenticate E s i t f) (fun s => authenticate (E.feat b) s i t f') := by
  by_cases h1 : t.source = true
  · simp only [authenticate, if_pos h1]; exact .pure _
  · cases ha : t.addr with
    | account id =>
      have he : ∀ (E' : HEnv) g, ∀ s, authenticate E' s i t g =
          bindH (liftSt s (fun st => getEntry E'.sto st (.account id))) (fun v s => (s, E'.accountCheck i v.1)) := by
        intro E' g s
        simp only [authenticate, if_neg h1, ha, bindH]
        rcases liftSt s (fun st => getEntry E'.sto st (.account id)) with ⟨s1, e | ⟨v, l⟩⟩ <;> rfl
      exact ((lock_get _).bind (fun v => .pure _)).congr (he E f) (he (E.feat b) f')
    | contract id =>
      simp only [authenticate, if_neg h1, ha]
      exact (lock_callN id checkAuthName .selfAllowed true h).map expectVoid

theorem lock_setAcct (i : Nat) (g : Acct → Acct) (r : Res α) :
    Lock E b src F (fun s => (setAcct s i g, r)) (fun s => (setAcct s i g, r)) :=
  (Lock.post (Lock.pure r) (fun _ c => { c with auth := c.auth.setAcct i g })).congr (fun _ => rfl) (fun _ => rfl)

theorem lock_verifyEntry (i : Nat) (t : Acct) {f f' : Host → Host × Res RVal} (h : Lock E b src F f f') :
    Lock E b src F (fun s => verifyEntry E s i t f) (fun s => verifyEntry (E.feat b) s i t f') := by
  by_cases h1 : t.verified = true
  · simp only [verifyEntry, if_pos h1]; exact .pure _
  · have he : ∀ (E' : HEnv) g, ∀ s, verifyEntry E' s i t g =
        bindH ((authenticate E' s i t g).1, (authenticate E' s i t g).2.mapError hideAuthError) (fun _ s =>
          bindH (verifyNonce E' s t) (fun _ s => (setAcct s i (fun t => { t with verified := true }), .ok ()))) := by
      intro E' g s
      simp only [verifyEntry, if_neg h1, bindH]
      rcases authenticate E' s i t g with ⟨s1, e | u⟩
      · rfl
      · simp only [Except.mapError]
        rcases verifyNonce E' s1 t with ⟨s2, e | u⟩ <;> rfl
    exact (((lock_authenticate i t h).map (Except.mapError hideAuthError)).bind
      (fun _ => (lock_verifyNonce t).bind (fun _ => lock_setAcct _ _ _))).congr (he E f) (he (E.feat b) f')

def requireEnforcingC (E : HEnv) (a : Addr) (f : AuthFn) (run : Nat → Host → Host × Res RVal) (c : Core) (s : Host) : Host × Res Unit :=
  match acctLoop a f (!c.auth.hasActive a) c.auth.accts 0 with
  | .error e => (s, .error e)
  | .ok none => (s, .error (.host .auth .invalidAction))
  | .ok (some (i, tr, p)) =>
    match c.auth.accts[i]? with
    | none => (s, .error (.host .auth .internalError))
    | some t =>
      (fun r : Host × Res Unit => (setAcct r.1 i (fun t => { t with borrowed := false }), r.2))
        (verifyEntry E (s.setCore { c with auth := c.auth.recordMatch i tr p a f }) i t (run i))

theorem lock_requireEnforcing (a : Addr) (f : AuthFn) {r r' : Nat → Host → Host × Res RVal} (h : ∀ i, Lock E b src F (r i) (r' i)) :
    Lock E b src F (fun s => requireEnforcing E s a f r) (fun s => requireEnforcing (E.feat b) s a f r') := by
  have he : ∀ (E' : HEnv) g, ∀ s, requireEnforcing E' s a f g = requireEnforcingC E' a f g s.core s := by
    intro E' g s
    unfold requireEnforcing requireEnforcingC
    simp only [Host.core, Host.setCore]
    cases acctLoop a f (!s.auth.hasActive a) s.auth.accts 0 with
    | error e => rfl
    | ok o =>
      rcases o with _ | ⟨i, tr, p⟩
      · rfl
      · rfl
  refine (Lock.dep (f := requireEnforcingC E a f r) (f' := requireEnforcingC (E.feat b) a f r') (fun c => ?_)).congr
    (he E r) (he (E.feat b) r')
  unfold requireEnforcingC
  cases acctLoop a f (!c.auth.hasActive a) c.auth.accts 0 with
  | error e => exact .pure _
  | ok o =>
    rcases o with _ | ⟨i, tr, p⟩
    · exact .pure _
    · simp only
      cases c.auth.accts[i]? with
      | none => exact .pure _
      | some t =>
        exact (((lock_verifyEntry i t (h i)).set { c with auth := c.auth.recordMatch i tr p a f }).post
          (fun _ c => { c with auth := c.auth.setAcct i (fun t => { t with borrowed := false }) })).congr (fun _ => rfl) (fun _ => rfl)

def requireInternalC (E : HEnv) (a : Addr) (f : AuthFn) (run : Nat → Host → Host × Res RVal) (c : Core) (s : Host) : Host × Res Unit :=
  match c.auth.checkInvoker a f with
  | (m, .error e) => (s.setCore { c with auth := m }, .error e)
  | (m, .ok true) => (s.setCore { c with auth := m }, .ok ())
  | (m, .ok false) => requireEnforcing E (s.setCore { c with auth := m }) a f run

theorem lock_requireInternal (a : Addr) (f : AuthFn) {r r' : Nat → Host → Host × Res RVal} (h : ∀ i, Lock E b src F (r i) (r' i)) :
    Lock E b src F (fun s => requireInternal E s a f r) (fun s => requireInternal (E.feat b) s a f r') := by
  have he : ∀ (E' : HEnv) g, ∀ s, requireInternal E' s a f g = requireInternalC E' a f g s.core s := by
    intro E' g s
    unfold requireInternal requireInternalC
    simp only [Host.core, Host.setCore]
    rcases s.auth.checkInvoker a f with ⟨m, e | t⟩
    · rfl
    · cases t <;> rfl
  refine (Lock.dep (f := requireInternalC E a f r) (f' := requireInternalC (E.feat b) a f r') (fun c => ?_)).congr
    (he E r) (he (E.feat b) r')
  unfold requireInternalC
  rcases c.auth.checkInvoker a f with ⟨m, e | t⟩
  · exact (Lock.pure _).set _
  · cases t
    · exact (lock_requireEnforcing a f h).set _
    · exact (Lock.pure _).set _

def requireAuthC (E : HEnv) (a : Addr) (args : List Nat) (run : Nat → Host → Host × Res RVal) (c : Core) (s : Host) : Host × Res Unit :=
  match c.auth.stack with
  | [] => (s, .error (.host .auth .internalError))
  | fr :: _ => requireInternal E s a (fr.toFn args) run

theorem lock_requireAuth (a : Addr) (args : List Nat) {r r' : Nat → Host → Host × Res RVal} (h : ∀ i, Lock E b src F (r i) (r' i)) :
    Lock E b src F (fun s => requireAuth E s a args r) (fun s => requireAuth (E.feat b) s a args r') := by
  refine (Lock.dep (f := requireAuthC E a args r) (f' := requireAuthC (E.feat b) a args r') (fun c => ?_)).congr
    (fun _ => rfl) (fun _ => rfl)
  unfold requireAuthC
  cases c.auth.stack with
  | nil => exact .pure _
  | cons fr _ => exact lock_requireInternal _ _ h

/-! ### contract creation -/

theorem lock_verifyExec (ex : Exec) : Lock E b src F (fun s => verifyExec E s ex) (fun s => verifyExec (E.feat b) s ex) := by
  cases ex with
  | wasm h => exact lock_verifyExists _
  | ref o t => exact lock_verifyExists _
  | asset => exact .pure _

theorem lock_createWithId (id : Nat) (ex : Exec) : Lock E b src F (fun s => createWithId E s id ex) (fun s => createWithId (E.feat b) s id ex) := by
  have he : ∀ (E' : HEnv), ∀ s, createWithId E' s id ex = bindH (liftSt s (fun st => has E'.sto st (.inst id))) (fun t s =>
      if t then (s, .error (.host .storage .existingValue))
      else bindH (verifyExec E' s ex) (fun _ s => storeInstance E' s (some ex) none id)) := by
    intro E' s
    unfold createWithId bindH
    rcases liftSt s (fun st => has E'.sto st (.inst id)) with ⟨s1, e | t⟩
    · rfl
    · cases t
      · simp only [Bool.false_eq_true, if_false]
        rcases verifyExec E' s1 ex with ⟨s2, e | u⟩ <;> rfl
      · rfl
  refine ((lock_has _).bind (fun t => ?_)).congr (he E) (he (E.feat b))
  cases t
  · exact (lock_verifyExec ex).bind (fun _ => lock_storeInstance _ _ _)
  · exact .pure _

theorem lock_supportsCtor (id : Nat) : Lock E b src F (fun s => supportsCtor E s id) (fun s => supportsCtor (E.feat b) s id) := by
  have he : ∀ (E' : HEnv), ∀ s, supportsCtor E' s id = bindH (getInstance E' s id) (fun x s =>
      bindH (wasmHash E' s x.1) (fun o s => match o with
        | none => (s, .ok true)
        | some c => bindH (loadCode E' s c) (fun _ s => (s, .ok (E'.hasCtor c))))) := by
    intro E' s
    unfold supportsCtor bindH
    rcases getInstance E' s id with ⟨s1, e | ⟨ex, m⟩⟩
    · rfl
    · simp only
      rcases wasmHash E' s1 ex with ⟨s2, e | o⟩
      · rfl
      · cases o with
        | none => rfl
        | some c =>
          simp only
          rcases loadCode E' s2 c with ⟨s3, e | u⟩ <;> rfl
  refine ((lock_getInstance id).bind (fun x => (lock_wasmHash x.1).bind (fun o => ?_))).congr (he E) (he (E.feat b))
  cases o with
  | none => exact .pure _
  | some c => exact (lock_loadCode c).bind (fun _ => .pure _)

theorem lock_callConstructor (id : Nat) (args : List Nat) {f f' : Host → Host × Res RVal} (h : Lock E b src F f f') :
    Lock E b src F (fun s => callConstructor E s id args f) (fun s => callConstructor (E.feat b) s id args f') := by
  have he : ∀ (E' : HEnv) g, ∀ s, callConstructor E' s id args g = bindH (supportsCtor E' s id) (fun t s =>
      if t then ((callN E' s id constructorName .prohibited true g).1, ctorResult (callN E' s id constructorName .prohibited true g).2)
      else (s, if args = [] then .ok () else .error (.host .context .invalidAction))) := by
    intro E' g s
    unfold callConstructor bindH
    rcases supportsCtor E' s id with ⟨s1, e | t⟩
    · rfl
    · cases t
      · simp only [Bool.false_eq_true, if_false]; split <;> rfl
      · rfl
  refine ((lock_supportsCtor id).bind (fun t => ?_)).congr (he E f) (he (E.feat b) f')
  cases t
  · exact .pure _
  · exact (lock_callN id constructorName .prohibited true h).map ctorResult

theorem lock_initAsset (id : Nat) {f f' : Host → Host × Res RVal} (h : Lock E b src F f f') :
    Lock E b src F (fun s => initAsset E s id f) (fun s => initAsset (E.feat b) s id f') := by
  have he : ∀ (E' : HEnv) g, ∀ s, initAsset E' s id g = bindH (callN E' s id initAssetName .prohibited false g) (fun _ s => (s, .ok ())) := by
    intro E' g s
    unfold initAsset bindH
    rcases callN E' s id initAssetName .prohibited false g with ⟨s1, e | t⟩ <;> rfl
  exact ((lock_callN id initAssetName .prohibited false h).bind (fun _ => .pure _)).congr (he E f) (he (E.feat b) f')

theorem lock_createInstance (id : Nat) (args : CreateArgs) {f f' : Host → Host × Res RVal} (h : Lock E b src F f f') :
    Lock E b src F (fun s => createInstance E s id args f) (fun s => createInstance (E.feat b) s id args f') := by
  have he : ∀ (E' : HEnv) g, ∀ s, createInstance E' s id args g = bindH (createWithId E' s id args.exec) (fun _ s =>
      if args.fromAsset then initAsset E' s id g else callConstructor E' s id args.ctorArgs g) := by
    intro E' g s
    unfold createInstance bindH
    rcases createWithId E' s id args.exec with ⟨s1, e | t⟩ <;> rfl
  refine ((lock_createWithId id args.exec).bind (fun _ => ?_)).congr (he E f) (he (E.feat b) f')
  split
  · exact lock_initAsset _ h
  · exact lock_callConstructor _ _ h

theorem lock_requireDeployer (d : Option Addr) {r r' : Nat → Host → Host × Res RVal} (h : ∀ i, Lock E b src F (r i) (r' i)) :
    Lock E b src F (fun s => requireDeployer E s d r) (fun s => requireDeployer (E.feat b) s d r') := by
  cases d with
  | none => exact .pure _
  | some d => exact lock_requireAuth _ _ h

theorem lock_createWithAuth (d : Option Addr) (args : CreateArgs) {r r' : Nat → Host → Host × Res RVal} (h : ∀ i, Lock E b src F (r i) (r' i))
    {f f' : Host → Host × Res RVal} (hf : Lock E b src F f f') :
    Lock E b src F (fun s => createWithAuth E s d args r f) (fun s => createWithAuth (E.feat b) s d args r' f') := by
  have he : ∀ (E' : HEnv) g g', ∀ s, createWithAuth E' s d args g g' = bindH (requireDeployer E' s d g) (fun _ s =>
      if preimageMatches args then bindH (createInstance E' s (E'.newId args.preimage args.fromAsset) args g')
        (fun _ s => (s, .ok (.other (E'.newId args.preimage args.fromAsset))))
      else (s, .error (.host .value .invalidInput))) := by
    intro E' g g' s
    unfold createWithAuth bindH
    rcases requireDeployer E' s d g with ⟨s1, e | t⟩
    · rfl
    · simp only
      split
      · rcases createInstance E' s1 (E'.newId args.preimage args.fromAsset) args g' with ⟨s2, e | u⟩ <;> rfl
      · rfl
  refine ((lock_requireDeployer d h).bind (fun _ => ?_)).congr (he E r f) (he (E.feat b) r' f')
  split
  · exact (lock_createInstance _ _ hf).bind (fun _ => .pure _)
  · exact .pure _

theorem lock_createContract (d : Option Addr) (args : CreateArgs) {r r' : Nat → Host → Host × Res RVal} (h : ∀ i, Lock E b src F (r i) (r' i))
    {f f' : Host → Host × Res RVal} (hf : Lock E b src F f f') :
    Lock E b src F (fun s => createContract E s d args r f) (fun s => createContract (E.feat b) s d args r' f') := by
  cases d with
  | none => exact (lock_createWithAuth none args h hf).congr (fun _ => rfl) (fun _ => rfl)
  | some d =>
    refine (Lock.dep (fun c => ((lock_createWithAuth (some d) args h hf).set { c with auth := c.auth.push (.create args) }).post
      (fun _ c => { c with auth := c.auth.popOnly }))).congr (fun _ => rfl) (fun _ => rfl)

theorem lock_recordEvent (e : Ev) (r : Res α) : Lock E b src F (fun s => (recordEvent s e, r)) (fun s => (recordEvent s e, r)) :=
  (Lock.post (Lock.pure r) (fun _ c => { c with events := c.events ++ [(e, false)] })).congr (fun _ => rfl) (fun _ => rfl)

def coreContract (c : Core) : Res Nat :=
  match c.ctx with
  | d :: _ => match d.cid with
    | some id => .ok id
    | none => .error (.host .context .internalError)
  | [] => .error (.host .context .internalError)

/-- Operations that need to know the current contract. -/
theorem lock_withContract {f f' : Nat → Host → Host × Res α} (h : ∀ id, Lock E b src F (f id) (f' id)) :
    Lock E b src F (fun s => withContract s (fun id => f id s)) (fun s => withContract s (fun id => f' id s)) := by
  refine (Lock.dep (f := fun c s => match currentContract (s.setCore c) with | .error e => (s, .error e) | .ok id => f id s)
    (f' := fun c s => match currentContract (s.setCore c) with | .error e => (s, .error e) | .ok id => f' id s) (fun c => ?_)).congr
    (fun _ => rfl) (fun _ => rfl)
  have hc : ∀ s : Host, currentContract (s.setCore c) = coreContract c := fun _ => rfl
  simp only [hc]
  cases coreContract c with
  | error e => exact .pure _
  | ok id => exact h id

theorem lock_updateExec (ex : Exec) : Lock E b src F (fun s => updateExec E s ex) (fun s => updateExec (E.feat b) s ex) := by
  have he : ∀ (E' : HEnv), ∀ s, updateExec E' s ex = bindH (verifyExec E' s ex) (fun _ s =>
      withContract s (fun id => (fun s => bindH (getInstance E' s id) (fun old s =>
        bindH (recordEvent s ⟨id, .updated old.1 ex⟩, .ok ()) (fun (_ : Unit) s => storeInstance E' s (some ex) none id))) s)) := by
    intro E' s
    unfold updateExec bindH withContract
    rcases verifyExec E' s ex with ⟨s1, e | t⟩
    · rfl
    · simp only
      cases currentContract s1 with
      | error e => rfl
      | ok id =>
        simp only
        rcases getInstance E' s1 id with ⟨s2, e | u⟩ <;> rfl
  exact ((lock_verifyExec ex).bind (fun _ => lock_withContract (fun id => (lock_getInstance id).bind (fun _ =>
    (lock_recordEvent _ _).bind (fun _ => lock_storeInstance _ _ _))))).congr (he E) (he (E.feat b))

theorem lock_uploadWasm (c w : Nat) : Lock E b src F (fun s => uploadWasm E s c w) (fun s => uploadWasm (E.feat b) s c w) := by
  have he : ∀ (E' : HEnv), ∀ s, uploadWasm E' s c w = bindH (liftSt s (fun st => has E'.sto st (.code c))) (fun t s =>
      if t then bindH (liftSt s (fun st => getEntry E'.sto st (.code c))) (fun v s => if v.1 = .code w then (s, .ok ())
        else match newLiveUntil E'.sto (.code c) with
          | .error e => (s, .error e)
          | .ok l => liftSt s (fun st => putOpt E'.sto st (.code c) (some (.code w, l))))
      else match newLiveUntil E'.sto (.code c) with
        | .error e => (s, .error e)
        | .ok l => liftSt s (fun st => putOpt E'.sto st (.code c) (some (.code w, l)))) := by
    intro E' s
    unfold uploadWasm bindH
    rcases liftSt s (fun st => has E'.sto st (.code c)) with ⟨s1, e | t⟩
    · rfl
    · cases t
      · rfl
      · simp only [if_true]
        rcases liftSt s1 (fun st => getEntry E'.sto st (.code c)) with ⟨s2, e | ⟨v, l⟩⟩ <;> rfl
  have hput : Lock E b src F (fun s => match newLiveUntil E.sto (.code c) with
        | .error e => (s, .error e)
        | .ok l => liftSt s (fun st => putOpt E.sto st (.code c) (some (.code w, l))))
      (fun s => match newLiveUntil (E.feat b).sto (.code c) with
        | .error e => (s, .error e)
        | .ok l => liftSt s (fun st => putOpt (E.feat b).sto st (.code c) (some (.code w, l)))) := by
    rw [show newLiveUntil (E.feat b).sto (.code c) = newLiveUntil E.sto (.code c) from rfl]
    cases hl : newLiveUntil E.sto (.code c) with
    | error e => exact .pure _
    | ok l => exact lock_put _ (newLive_live hl _)
  refine ((lock_has _).bind (fun t => ?_)).congr (he E) (he (E.feat b))
  cases t
  · exact hput
  · simp only [if_true]
    refine (lock_get _).bind (fun v => ?_)
    split
    · exact .pure _
    · exact hput

/-! ### contract data -/

theorem lock_validatePut (k : DKey) (v : Nat) (d : Durability) :
    Lock E b src F (fun s => validatePut E s k v d) (fun s => validatePut (E.feat b) s k v d) := by
  unfold validatePut
  cases k with
  | val n => exact .pure _
  | tag n =>
    simp only
    by_cases hd : d = .persistent
    · simp only [if_pos hd]
      rw [show (E.feat b).hashOf = E.hashOf from rfl]
      cases E.hashOf v with
      | none => exact .pure _
      | some h => exact lock_verifyExists _
    · simp only [if_neg hd]; exact .pure _

theorem Lock.asUnit {f f' : Host → Host × Res α} (h : Lock E b src F f f') :
    Lock E b src F (fun s => asUnit (f s)) (fun s => asUnit (f' s)) :=
  h.map (fun r => match r with | .ok _ => (.ok .unit : Res (Out LVal)) | .error e => .error e)

theorem lock_extendKey (k : LKey) (x : Ext) : Lock E b src F (fun s => extendKey E s k x) (fun s => extendKey (E.feat b) s k x) := by
  cases x with
  | upTo t e => exact lock_extend _ _ _
  | between e x y => exact lock_extendV2 _ _ _ _

theorem lock_extendCode (c : Nat) (x : Ext) : Lock E b src F (fun s => extendCode E s c x) (fun s => extendCode (E.feat b) s c x) := by
  have h : ∀ E' : HEnv, ∀ s, extendCode E' s c x = bindH (getInstance E' s c) (fun v => match v.1 with
      | .wasm h => fun s => extendKey E' s (.code h) x
      | .asset => fun s => (s, .ok ())
      | .ref o t => fun s => bindH (extendKey E' s (.data o (.tag t) .persistent) x) (fun _ s =>
        bindH (resolveRef E' s o t) (fun h s => extendKey E' s (.code h) x))) := by
    intro E' s
    unfold extendCode
    rcases getInstance E' s c with ⟨s1, e | ⟨ex, m⟩⟩
    · rfl
    · cases ex with
      | wasm h => rfl
      | asset => rfl
      | ref o t =>
        simp only [bindH]
        rcases extendKey E' s1 (.data o (.tag t) .persistent) x with ⟨s2, e | u⟩
        · rfl
        · simp only
          rcases resolveRef E' s2 o t with ⟨s3, e | h⟩ <;> rfl
  refine ((lock_getInstance c).bind (fun v => ?_)).congr (h E) (h (E.feat b))
  cases v.1 with
  | wasm h => exact lock_extendKey _ _
  | asset => exact .pure _
  | ref o t => exact (lock_extendKey _ _).bind (fun _ => (lock_resolveRef o t).bind (fun h => lock_extendKey _ _))

theorem lock_extendContract (c : Nat) (scope : Scope) (x : Ext) :
    Lock E b src F (fun s => extendContract E s c scope x) (fun s => extendContract (E.feat b) s c scope x) := by
  cases scope with
  | inst => exact lock_extendKey _ _
  | code => exact lock_extendCode _ _
  | both =>
    cases x with
    | upTo t e =>
      have h : ∀ E' : HEnv, ∀ s, extendContract E' s c .both (.upTo t e) =
          bindH (extendKey E' s (.inst c) (.upTo t e)) (fun _ s => extendCode E' s c (.upTo t e)) := by
        intro E' s
        simp only [extendContract, bindH]
        rcases extendKey E' s (.inst c) (.upTo t e) with ⟨s1, e | u⟩ <;> rfl
      exact ((lock_extendKey _ _).bind (fun _ => lock_extendCode _ _)).congr (h E) (h (E.feat b))
    | between e x y =>
      have h : ∀ E' : HEnv, ∀ s, extendContract E' s c .both (.between e x y) =
          bindH (extendCode E' s c (.between e x y)) (fun _ s => extendKey E' s (.inst c) (.between e x y)) := by
        intro E' s
        simp only [extendContract, bindH]
        rcases extendCode E' s c (.between e x y) with ⟨s1, e | u⟩ <;> rfl
      exact ((lock_extendCode _ _).bind (fun _ => lock_extendKey _ _)).congr (h E) (h (E.feat b))

theorem lock_dataOp (id : Nat) (o : DataOp) : Lock E b src F (fun s => dataOp E s id o) (fun s => dataOp (E.feat b) s id o) := by
  cases o with
  | get k d =>
    refine ((lock_get (.data (.contract id) k d)).bind (fun v => .pure (.ok (.entry v)))).congr (fun s => ?_) (fun s => ?_) <;>
    · simp only [dataOp, bindH]; split <;> rename_i hh <;> rw [hh]
  | has k d =>
    refine ((lock_has (.data (.contract id) k d)).bind (fun v => .pure (.ok (.bool v)))).congr (fun s => ?_) (fun s => ?_) <;>
    · simp only [dataOp, bindH]; split <;> rename_i hh <;> rw [hh]
  | put k v d =>
    refine ((lock_validatePut k v d).bind (fun _ => (lock_write (.data (.contract id) k d) (fun _ => .data v)).asUnit)).congr (fun s => ?_) (fun s => ?_) <;>
    · simp only [dataOp, bindH]; split <;> rename_i hh <;> rw [hh]
  | del k d =>
    cases k with
    | tag n => exact .pure _
    | val n => exact (lock_del _).asUnit
  | extend k d t e => exact (lock_extend _ _ _).asUnit
  | extendV2 k d e x y => exact (lock_extendV2 _ _ _ _).asUnit
  | extendContract c scope x => exact (lock_extendContract _ _ _).asUnit
  | getClassic n =>
    refine ((lock_get (.classic n)).bind (fun v => .pure (.ok (.entry v)))).congr (fun s => ?_) (fun s => ?_) <;>
    · simp only [dataOp, bindH]; split <;> rename_i hh <;> rw [hh]
  | putClassic n v => exact (lock_write _ _).asUnit

def instOpC (o : InstOp) (c : Core) (s : Host) : Host × Res (Out LVal) :=
  match c.ctx with
  | [] => (s, .error (.host .context .internalError))
  | d :: cs =>
    match d.load with
    | .error e => (s, .error e)
    | .ok m => ({ s with ctx := { d with storage := some (instStep m o).1 } :: cs }, (instStep m o).2)

theorem lock_instOp (o : InstOp) : Lock E b src F (fun s => instOp s o) (fun s => instOp s o) := by
  refine (Lock.dep (f := instOpC o) (f' := instOpC o) (fun c => ?_)).congr (fun _ => rfl) (fun _ => rfl)
  unfold instOpC
  rcases c.ctx with _ | ⟨d, cs⟩
  · exact .pure _
  · simp only
    cases d.load with
    | error e => exact .pure _
    | ok m => exact lock_setCtx _ _

/-! ### programs -/

theorem Lock.andThen {f f' : Host → Host × Res α} {g g' : α → Host → Host × Res RVal} (h : Lock E b src F f f')
    (hg : ∀ a, Lock E b src F (g a) (g' a)) :
    Lock E b src F (fun s => andThen (f s) g) (fun s => andThen (f' s) g') := by
  have h' := h.post (fun r c => match r with
    | .ok _ => c
    | .error e => if recoverable e then c else { c with fatal := true })
  refine (h'.bind hg).congr (fun s => ?_) (fun s => ?_) <;>
  · unfold Host.andThen bindH mark
    simp only
    split
    · rename_i e he
      rw [he]
      simp only
      split <;> rfl
    · rename_i v hv
      rw [hv]
      rfl

theorem lock_fail (e : Err) : Lock E b src F (fun s => (mark s e, (.error e : Res α))) (fun s => (mark s e, .error e)) := by
  unfold mark
  split
  · exact .pure _
  · exact (Lock.post (Lock.pure _) (fun _ c => { c with fatal := true })).congr (fun _ => rfl) (fun _ => rfl)

theorem lock_run (p : Prog) : Lock E b src F (run E p) (run (E.feat b) p) := by
  induction p with
  | ret v => exact .pure _
  | fail e => exact lock_fail e
  | data o next ih => exact (lock_withContract (fun id => lock_dataOp id o)).andThen (fun v => ih v)
  | inst o next ih => exact (lock_instOp o).andThen (fun v => ih v)
  | event p next ih => exact (lock_withContract (fun id => lock_recordEvent ⟨id, .contract p⟩ (.ok ()))).andThen (fun _ => ih)
  | auth a args check next ih1 ih2 => exact (lock_requireAuth a args ih1).andThen (fun _ => ih2)
  | authAs es next ih =>
    refine (lock_withContract (f := fun id s => ({ s with auth := s.auth.addInvoker (.contract id) es }, .ok ()))
      (f' := fun id s => ({ s with auth := s.auth.addInvoker (.contract id) es }, .ok ())) (fun id => ?_)).andThen (fun _ => ih)
    exact (Lock.post (Lock.pure _) (fun _ c => { c with auth := c.auth.addInvoker (.contract id) es })).congr (fun _ => rfl) (fun _ => rfl)
  | call id fn body next ih1 ih2 => exact (lock_callN id fn .prohibited false ih1).andThen ih2
  | tryCall id fn body next ih1 ih2 => exact (lock_tryCall id fn ih1).andThen ih2
  | create d args check ctor next ih1 ih2 ih3 => exact (lock_createContract d args ih1 ih2).andThen ih3
  | update ex next ih => exact (lock_updateExec ex).andThen (fun _ => ih)
  | upload c w next ih => exact (lock_uploadWasm c w).andThen (fun _ => ih)

theorem lock_invoke (hf : HostFn) : Lock E b src F (fun s => invoke E s hf) (fun s => invoke (E.feat b) s hf) := by
  refine lock_withFrame _ ?_
  cases hf with
  | invoke id fn body => exact lock_callN id fn .prohibited false (lock_run body)
  | create d args check ctor => exact lock_createContract d args (fun i => lock_run (check i)) (lock_run ctor)
  | upload c w =>
    refine ((lock_uploadWasm c w).bind (fun _ => .pure (.ok (.other c)))).congr (fun s => ?_) (fun s => ?_) <;>
    · simp only [hostFnBody, bindH]; split <;> rename_i hh <;> rw [hh]

end Soroban.Host
