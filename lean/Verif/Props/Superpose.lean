import Verif.Props.Knowing
import Verif.Props.EkfMotion
/-! # C148: estimated velocities are a weighted sum of the readings -/

namespace RL
open Matrix

/-- The velocities and accelerations of `x` are `a` times those of `y` plus `b` times those of `z`. -/
def Superposed (a b : ℝ) (x y z : State) : Prop := ∀ i : Fin 15, 6 ≤ i.val → x i = a * y i + b * z i

/-- The same for states that may not be finite. -/
def SuperposedOpt (a b : ℝ) (x y z : Option State) : Prop :=
  ∀ u v w, x = some u → y = some v → z = some w → Superposed a b u v w

/-- Three readings by the same sensor, the first of which is `a` times the second plus `b` times the third. -/
structure Payload.Super (a b : ℝ) (m m1 m2 : Payload) : Prop where
  one : m.SameKind m1
  two : m.SameKind m2
  val : ∀ i, m.upd i = true → (m.z i).isFin = true → (m.z i).val = a * (m1.z i).val + b * (m2.z i).val

/-- The same things happen to three nodes at the same times, with readings of which the first is `a` times the second
plus `b` times the third. -/
inductive Node.Event.Super {p : FilterPar} (a b : ℝ) : Node.Event (ekfCore p) → Node.Event (ekfCore p) → Node.Event (ekfCore p) → Prop
  | nothing (topic : String) (stamp : Int) : Super a b (.sensor topic stamp none) (.sensor topic stamp none) (.sensor topic stamp none)
  | sensor (topic : String) (stamp : Int) {m m1 m2 : Payload} (h : m.Super a b m1 m2) :
      Super a b (.sensor topic stamp (some m)) (.sensor topic stamp (some m1)) (.sensor topic stamp (some m2))
  | control (u u1 u2 : Fin 6 → ℝ) (t : Int) : Super a b (.control u t) (.control u1 t) (.control u2 t)
  | zero (stamp now : Int) : Super a b (.setPose stamp now none) (.setPose stamp now none) (.setPose stamp now none)
  | setPose (stamp now : Int) {x x1 x2 : Option State} {P P1 P2 : Mat15} (hx : SuperposedOpt a b x x1 x2)
      (h1 : SameMotion P P1) (h2 : SameMotion P P2) :
      Super a b (.setPose stamp now (some (x, P))) (.setPose stamp now (some (x1, P1))) (.setPose stamp now (some (x2, P2)))
  | reset : Super a b .reset .reset .reset
  | toggle (on : Bool) : Super a b (.toggle on) (.toggle on) (.toggle on)
  | enable : Super a b .enable .enable .enable
  | tick (now now2 : Int) (tfOk : Bool) : Super a b (.tick now now2 tfOk) (.tick now now2 tfOk) (.tick now now2 tfOk)

/-- Messages of three nodes at the same time; the velocities and accelerations in the first one are `a` times those in the
second plus `b` times those in the third, if all are finite. -/
inductive Out.Super {p : FilterPar} (a b : ℝ) : Out (ekfCore p) → Out (ekfCore p) → Out (ekfCore p) → Prop
  | odom (t : Int) {x x1 x2 : Option State} {P P1 P2 : Mat15} (hx : SuperposedOpt a b x x1 x2) :
      Super a b (.odom t x P) (.odom t x1 P1) (.odom t x2 P2)
  | tf (t : Int) : Super a b (.tf t) (.tf t) (.tf t)
  | accel (t : Int) : Super a b (.accel t) (.accel t) (.accel t)

theorem transferF_motion (x x' : State) (dt : ℝ) : ∀ i j : Fin 15, 6 ≤ i.val → transferF x' dt i j = transferF x dt i j := by
  intro i j h
  show (fEntry (trig x') dt i j).getD ((1 : Mat15) i j) = (fEntry (trig x) dt i j).getD ((1 : Mat15) i j)
  revert h
  fin_cases i <;> first
    | exact fun h => absurd h (by decide)
    | (fin_cases j <;> exact fun _ => rfl)

theorem transferF_motion_pose (x : State) (dt : ℝ) : ∀ i j : Fin 15, 6 ≤ i.val → j.val < 6 → transferF x dt i j = 0 := by
  intro i j hi hj
  have e : (1 : Mat15) i j = 0 := Matrix.one_apply_ne fun hh => by rw [hh] at hi; omega
  show (fEntry (trig x) dt i j).getD ((1 : Mat15) i j) = 0
  rw [e]
  revert hi hj
  clear e
  fin_cases i <;> first
    | exact fun h => absurd h (by decide)
    | (fin_cases j <;> first | exact fun _ h => absurd h (by decide) | exact fun _ _ => rfl)

theorem wrap_motion (x : State) (i : Fin 15) (hi : 6 ≤ i.val) : wrapStateAngles x i = x i := by
  unfold wrapStateAngles
  rw [if_neg]
  rintro (rfl | rfl | rfl) <;> exact absurd hi (by decide)

variable {a b : ℝ} {p : FilterPar}

theorem Superposed.predict (hp : ∀ c, p.ctlUpd c = false) {Q Q1 Q2 P P1 P2 : Mat15} {u u1 u2 : Fin 6 → ℝ} {t ref : Int} {dt : ℝ}
    {x x1 x2 : State} (hx : Superposed a b x x1 x2) {r r1 r2 : State × Mat15}
    (h : Ekf.predict p Q u t ref dt x P = some r) (h1 : Ekf.predict p Q1 u1 t ref dt x1 P1 = some r1)
    (h2 : Ekf.predict p Q2 u2 t ref dt x2 P2 = some r2) : Superposed a b r.1 r1.1 r2.1 := by
  have key : ∀ {Q P : Mat15} {u : Fin 6 → ℝ} {y : State} {s : State × Mat15}, Ekf.predict p Q u t ref dt y P = some s →
      ∀ i : Fin 15, 6 ≤ i.val → s.1 i = ∑ j, transferF x dt i j * y j := by
    intro Q P u y s hs i hi
    unfold Ekf.predict at hs
    dsimp only at hs
    split at hs
    · cases hs
    injection hs with hs
    rw [← hs]
    show wrapStateAngles _ i = _
    rw [wrap_motion _ i hi, applyControl_none p hp]
    show ∑ j, transferF y dt i j * y j = _
    refine Finset.sum_congr rfl fun j _ => ?_
    rw [transferF_motion x y dt i j hi]
  intro i hi
  rw [key h i hi, key h1 i hi, key h2 i hi, Finset.mul_sum, Finset.mul_sum, ← Finset.sum_add_distrib]
  refine Finset.sum_congr rfl fun j _ => ?_
  by_cases hj : j.val < 6
  · rw [transferF_motion_pose x dt i j hi hj]
    ring
  · rw [hx j (by omega)]
    ring

theorem innovation_motion {n : ℕ} {e : Fin n → Fin 15} (he : ∀ c, 6 ≤ (e c).val) (z : Fin 15 → ℝ) (x : State) (c : Fin n) :
    innovation e z x c = z (e c) - x (e c) := by
  unfold innovation
  dsimp only
  rw [if_neg]
  have h6 := he c
  rintro (h | h | h) <;> (rw [h] at h6; exact absurd h6 (by decide))

theorem Superposed.correct {m m1 m2 : Payload} (hm : m.Super a b m1 m2) {P P1 P2 : Mat15} (hP1 : SameMotion P P1)
    (hP2 : SameMotion P P2) {x x1 x2 : State} (hx : Superposed a b x x1 x2) {r r1 r2 : State × Mat15}
    (h : Ekf.correct m x P = some r) (h1 : Ekf.correct m1 x1 P1 = some r1)
    (h2 : Ekf.correct m2 x2 P2 = some r2) : Superposed a b r.1 r1.1 r2.1 := by
  have he : ∀ c, 6 ≤ (m.indices.get c).val := fun c => hm.one.motion _ (Payload.selected c)
  have hf : ∀ c, (m.z (m.indices.get c)).isFin = true := by
    intro c
    have h : m.indices.get c ∈ m.indices := List.get_mem m.indices c
    have h := (List.mem_filter.1 h).2
    simp only [Bool.and_eq_true] at h
    revert h
    cases m.z (m.indices.get c) <;> simp [Dbl.isFin, Dbl.isNan, Dbl.isInf]
  have key : ∀ {m' : Payload} {P' : Mat15} {y : State} {s : State × Mat15}, m.SameKind m' → SameMotion P P' →
      Ekf.correct m' y P' = some s → ∀ i : Fin 15, 6 ≤ i.val →
      s.1 i = y i + ∑ c, gain m.indices.get m.R P i c * ((m'.z (m.indices.get c)).val - y (m.indices.get c)) := by
    intro m' P' y s hk hP' hs i hi
    unfold Ekf.correct correctAt at hs
    rw [hk.indices, hk.open2] at hs
    split at hs
    · cases hs
    rw [if_pos (show checkMahalanobis _ _ .unlimited from trivial)] at hs
    injection hs with hs
    rw [← hs]
    show wrapStateAngles _ i = _
    rw [wrap_motion _ i hi]
    show y i + ∑ c, gain m.indices.get m'.R P' i c * innovation m.indices.get (fun i => (m'.z i).val) y c = _
    congr 1
    refine Finset.sum_congr rfl fun c _ => ?_
    rw [innovation_motion he, gain_motion he (fun c d => hk.R _ _ (Payload.selected c) (Payload.selected d)) hP' i hi c]
  have k0 : m.SameKind m := ⟨rfl, hm.one.motion, fun _ _ => rfl, fun _ _ _ _ => rfl, hm.one.open1, hm.one.open1⟩
  intro i hi
  rw [key k0 (fun _ _ _ _ => rfl) h i hi, key hm.one hP1 h1 i hi, key hm.two hP2 h2 i hi, hx i hi, mul_add, mul_add,
    Finset.mul_sum, Finset.mul_sum]
  have : ∀ s s1 s2 y1 y2 : ℝ, s = s1 + s2 → y1 + y2 + s = y1 + s1 + (y2 + s2) := by
    intros
    linarith
  apply this
  rw [← Finset.sum_add_distrib]
  refine Finset.sum_congr rfl fun c _ => ?_
  rw [hm.val _ (Payload.selected c) (hf c), hx _ (he c)]
  ring

theorem Superposed.init {m m1 m2 : Payload} (hm : m.Super a b m1 m2) {x x1 x2 : State} (hx : Superposed a b x x1 x2)
    {y y1 y2 : State} (h : initState m x = some y) (h1 : initState m1 x1 = some y1) (h2 : initState m2 x2 = some y2) :
    Superposed a b y y1 y2 := by
  unfold initState at h h1 h2
  split at h
  swap
  · cases h
  rename_i hfin
  split at h1
  swap
  · cases h1
  split at h2
  swap
  · cases h2
  injection h with h
  injection h1 with h1
  injection h2 with h2
  intro i hi
  rw [← h, ← h1, ← h2]
  simp only [hm.one.upd, hm.two.upd]
  cases hu : m.upd i with
  | true => simpa using hm.val i hu (hfin i hu)
  | false => simpa using hx i hi

/-- Three filters as one. -/
noncomputable abbrev tripleCore (p : FilterPar) : Core := pairCore (ekfCore p) (pairCore (ekfCore p) (ekfCore p))

/-- What relates the three estimates. -/
def SuperSure (a b : ℝ) (x : (tripleCore p).X) (P : (tripleCore p).Cov) : Prop :=
  ∀ u v w, (x : Option State × Option State × Option State).1 = some u → (x : Option State × Option State × Option State).2.1 = some v →
    (x : Option State × Option State × Option State).2.2 = some w →
    Superposed a b u v w ∧ SameMotion (P : Mat15 × Mat15 × Mat15).1 (P : Mat15 × Mat15 × Mat15).2.1 ∧
      SameMotion (P : Mat15 × Mat15 × Mat15).1 (P : Mat15 × Mat15 × Mat15).2.2

theorem ekf_predict_some {Q P : Mat15} {u : Fin 6 → ℝ} {t ref delta : Int} {x : Option State} {y : State}
    (h : ((ekfCore p).predict Q u t ref delta (x, P, ())).1 = some y) : ∃ x0, x = some x0 ∧
    Ekf.predict p Q u t ref (toSec delta) x0 P = some (y, ((ekfCore p).predict Q u t ref delta (x, P, ())).2.1) := by
  cases x with
  | none => cases h
  | some x0 =>
    have e1 : (ekfCore p).predict Q u t ref delta (some x0, P, ()) = match Ekf.predict p Q u t ref (toSec delta) x0 P with
      | some r => (some r.1, r.2, ())
      | none => (none, P, ()) := rfl
    rw [e1] at h ⊢
    cases h1 : Ekf.predict p Q u t ref (toSec delta) x0 P with
    | none =>
      rw [h1] at h
      cases h
    | some r =>
      rw [h1] at h
      injection h with h
      exact ⟨x0, rfl, by rw [h1, ← h]; rfl⟩

theorem ekf_correct_some {P : Mat15} {m : Payload} {x : Option State} {y : State}
    (h : ((ekfCore p).correct m (x, P, ())).1 = some y) : ∃ x0, x = some x0 ∧
    Ekf.correct m x0 P = some (y, ((ekfCore p).correct m (x, P, ())).2.1) := by
  cases x with
  | none => cases h
  | some x0 =>
    have e1 : (ekfCore p).correct m (some x0, P, ()) = match Ekf.correct m x0 P with
      | some r => (some r.1, r.2, ())
      | none => (none, P, ()) := rfl
    rw [e1] at h ⊢
    cases h1 : Ekf.correct m x0 P with
    | none =>
      rw [h1] at h
      cases h
    | some r =>
      rw [h1] at h
      injection h with h
      exact ⟨x0, rfl, by rw [h1, ← h]; rfl⟩

/-- The same configuration with another initial state. -/
def Cfg.from (g : Cfg (ekfCore p)) (x : Option State) : Cfg (ekfCore p) := { g with initialState := x }

theorem superSure_inv (hp : ∀ c, p.ctlUpd c = false) (g : Cfg (ekfCore p)) {x x1 x2 : Option State}
    (hx : SuperposedOpt a b x x1 x2) :
    EstInv ((g.from x).pair ((g.from x1).pair (g.from x2))) (SuperSure a b) (SuperSure a b)
      (fun z => Payload.Super a b (z : Payload × Payload × Payload).1 (z : Payload × Payload × Payload).2.1
        (z : Payload × Payload × Payload).2.2) (fun _ => True) where
  predict := by
    rintro ⟨Q, Q1, Q2⟩ hpar ⟨u, u1, u2⟩ t ref delta ⟨x, x1, x2⟩ ⟨P, P1, P2⟩ ⟨⟨⟩, ⟨⟩, ⟨⟩⟩ - - hI y y1 y2 h h1 h2
    have hQ : Q1 = Q ∧ Q2 = Q := by
      rcases hpar with hh | hh <;> (cases hh; exact ⟨rfl, rfl⟩)
    obtain ⟨rfl, rfl⟩ := hQ
    obtain ⟨x0, rfl, e⟩ := ekf_predict_some h
    obtain ⟨y0, rfl, e1⟩ := ekf_predict_some h1
    obtain ⟨z0, rfl, e2⟩ := ekf_predict_some h2
    obtain ⟨a1, a2, a3⟩ := hI x0 y0 z0 rfl rfl rfl
    exact ⟨Superposed.predict hp a1 e e1 e2, SameMotion.predict (fun _ _ _ _ => rfl) a2 e e1,
      SameMotion.predict (fun _ _ _ _ => rfl) a3 e e2⟩
  correct := by
    rintro ⟨z, z1, z2⟩ ⟨x, x1, x2⟩ ⟨P, P1, P2⟩ ⟨⟨⟩, ⟨⟩, ⟨⟩⟩ hz hI y y1 y2 h h1 h2
    obtain ⟨x0, rfl, e⟩ := ekf_correct_some h
    obtain ⟨y0, rfl, e1⟩ := ekf_correct_some h1
    obtain ⟨z0, rfl, e2⟩ := ekf_correct_some h2
    obtain ⟨a1, a2, a3⟩ := hI x0 y0 z0 rfl rfl rfl
    exact ⟨Superposed.correct hz a2 a3 a1 e e1 e2, SameMotion.correct hz.one a2 e e1, SameMotion.correct hz.two a3 e e2⟩
  init := by
    rintro ⟨z, z1, z2⟩ ⟨x, x1, x2⟩ ⟨P, P1, P2⟩ hz hI y y1 y2 h h1 h2
    obtain ⟨x0, rfl, e⟩ : ∃ x0, x = some x0 ∧ initState z x0 = some y := by
      cases x with
      | none => cases h
      | some x0 => exact ⟨x0, rfl, h⟩
    obtain ⟨y0, rfl, e1⟩ : ∃ x0, x1 = some x0 ∧ initState z1 x0 = some y1 := by
      cases x1 with
      | none => cases h1
      | some x0 => exact ⟨x0, rfl, h1⟩
    obtain ⟨z0, rfl, e2⟩ : ∃ x0, x2 = some x0 ∧ initState z2 x0 = some y2 := by
      cases x2 with
      | none => cases h2
      | some x0 => exact ⟨x0, rfl, h2⟩
    obtain ⟨a1, a2, a3⟩ := hI x0 y0 z0 rfl rfl rfl
    exact ⟨Superposed.init hz a1 e e1 e2, SameMotion.init hz.one a2, SameMotion.init hz.two a3⟩
  start := fun u v w h1 h2 h3 => ⟨hx u v w h1 h2 h3, fun _ _ _ _ => rfl, fun _ _ _ _ => rfl⟩
  reset := by
    rintro u v w h1 h2 h3
    cases h1
    cases h2
    cases h3
    exact ⟨fun _ _ => by simp, fun _ _ _ _ => rfl, fun _ _ _ _ => rfl⟩
  ctl0 := trivial

/-- C148: three nodes with the same configuration, without control, get messages at the same times from the same sensors,
which measure velocities and accelerations and reject nothing.  Whenever every reading and initial velocity of the first
is `a` times that of the second plus `b` times that of the third, so is every velocity and acceleration it sends, as long
as all are finite.  Whatever the poses. -/
theorem C148_superposition (hp : ∀ c, p.ctlUpd c = false) (g : Cfg (ekfCore p)) {x x1 x2 : Option State}
    (hx : SuperposedOpt a b x x1 x2) (u : Fin 6 → ℝ) (now : Int) (h0 : 0 ≤ now)
    (ts : List (Node.Event (ekfCore p) × Node.Event (ekfCore p) × Node.Event (ekfCore p)))
    (ht : ∀ t ∈ ts, Node.Event.Super a b t.1 t.2.1 t.2.2) (hclk : Clocked now (ts.map (·.1))) :
    ∃ os : List (Out (ekfCore p) × Out (ekfCore p) × Out (ekfCore p)),
      (Node.run (g.from x) (Node.start (g.from x) (PQueue.sortedList _ _) () u now) (ts.map (·.1))).2 = os.map (·.1) ∧
      (Node.run (g.from x1) (Node.start (g.from x1) (PQueue.sortedList _ _) () u now) (ts.map (·.2.1))).2 = os.map (·.2.1) ∧
      (Node.run (g.from x2) (Node.start (g.from x2) (PQueue.sortedList _ _) () u now) (ts.map (·.2.2))).2 = os.map (·.2.2) ∧
      ∀ o ∈ os, Out.Super a b o.1 o.2.1 o.2.2 := by
  obtain ⟨ps, e0, e1, e2, hz, hc⟩ : ∃ ps : List (Node.Event (tripleCore p)),
      ps.map Node.Event.fst = ts.map (·.1) ∧ (ps.map Node.Event.snd).map Node.Event.fst = ts.map (·.2.1) ∧
      (ps.map Node.Event.snd).map Node.Event.snd = ts.map (·.2.2) ∧
      (∀ (n : Node (tripleCore p) (PQueue.sortedList _ _)), Along ((g.from x).pair ((g.from x1).pair (g.from x2)))
        (Node.Ok (SuperSure a b) (SuperSure a b)
        (fun z => Payload.Super a b (z : Payload × Payload × Payload).1 (z : Payload × Payload × Payload).2.1
          (z : Payload × Payload × Payload).2.2) (fun _ => True)) n ps) ∧
      ∀ k, Clocked k (ts.map (·.1)) → Clocked k ps := by
    clear hclk
    induction ts with
    | nil => exact ⟨[], rfl, rfl, rfl, fun _ => trivial, fun _ _ => trivial⟩
    | cons t ts ih =>
      obtain ⟨ps, h0, h1, h2, h3, h4⟩ := ih fun t' h' => ht t' (List.mem_cons_of_mem _ h')
      have h := ht t List.mem_cons_self
      obtain ⟨t, t1, t2⟩ := t
      simp only [List.map_cons, ← h0, ← h1, ← h2]
      rw [← h0] at h4
      have zero : ∀ P : Mat15, SuperSure (p := p) a b (some 0, some 0, some 0) (P, P, P) := by
        rintro P u v w h1 h2 h3
        cases h1
        cases h2
        cases h3
        exact ⟨fun _ _ => by simp, fun _ _ _ _ => rfl, fun _ _ _ _ => rfl⟩
      cases h with
      | nothing topic stamp =>
        exact ⟨.sensor topic stamp none :: ps, rfl, rfl, rfl, fun n => ⟨trivial, h3 _⟩, fun k hk => h4 k hk⟩
      | sensor topic stamp h =>
        rename_i m m1 m2
        exact ⟨.sensor topic stamp (some (m, m1, m2)) :: ps, rfl, rfl, rfl, fun n => ⟨h, h3 _⟩, fun k hk => h4 k hk⟩
      | control v v1 v2 t => exact ⟨.control (v, v1, v2) t :: ps, rfl, rfl, rfl, fun n => ⟨trivial, h3 _⟩, fun k hk => h4 k hk⟩
      | zero stamp now =>
        exact ⟨.setPose stamp now none :: ps, rfl, rfl, rfl, fun n => ⟨⟨zero _, fun _ => zero _⟩, h3 _⟩,
          fun k hk => ⟨hk.1, h4 _ hk.2⟩⟩
      | setPose stamp now hx h1 h2 =>
        rename_i x x1 x2 P P1 P2
        have hs : SuperSure (p := p) a b (x, x1, x2) (P, P1, P2) := fun u v w e e1 e2 => ⟨hx u v w e e1 e2, h1, h2⟩
        exact ⟨.setPose stamp now (some ((x, x1, x2), (P, P1, P2))) :: ps, rfl, rfl, rfl, fun n => ⟨⟨hs, fun _ => hs⟩, h3 _⟩,
          fun k hk => ⟨hk.1, h4 _ hk.2⟩⟩
      | reset => exact ⟨.reset :: ps, rfl, rfl, rfl, fun n => ⟨trivial, h3 _⟩, fun k hk => h4 k hk⟩
      | toggle on => exact ⟨.toggle on :: ps, rfl, rfl, rfl, fun n => ⟨trivial, h3 _⟩, fun k hk => h4 k hk⟩
      | enable => exact ⟨.enable :: ps, rfl, rfl, rfl, fun n => ⟨trivial, h3 _⟩, fun k hk => h4 k hk⟩
      | tick now now2 tfOk =>
        exact ⟨.tick now now2 tfOk :: ps, rfl, rfl, rfl, fun n => ⟨trivial, h3 _⟩,
          fun k hk => ⟨hk.1, hk.2.1, h4 _ hk.2.2⟩⟩
  have hE := superSure_inv (p := p) hp g hx
  have hN := (NInv.run hE ps (NInv.start hE (PQueue.sortedList _ _) ((), (), ()) (fctl0 := (u, u, u)) trivial now)
    (HInv.start ((g.from x).pair ((g.from x1).pair (g.from x2))) (PQueue.sortedList _ _) ((), (), ()) (u, u, u) now) h0
      (hc now hclk) (hz _)).2
  have hs : ∀ y z, (g.from y).SameSwitches (g.from z) := fun _ _ => ⟨rfl, rfl, rfl, rfl, rfl, rfl, rfl, rfl, rfl⟩
  have hs2 : (g.from x).SameSwitches ((g.from x1).pair (g.from x2)) := ⟨rfl, rfl, rfl, rfl, rfl, rfl, rfl, rfl, rfl⟩
  have r0 := run_fst (QueueSim.sorted (fstSim (ekfCore p) (pairCore (ekfCore p) (ekfCore p)))) (g.from x)
    ((g.from x1).pair (g.from x2)) () ((), ()) u (u, u) now ps
  have r := run_snd (QueueSim.sorted (sndSim (ekfCore p) (pairCore (ekfCore p) (ekfCore p)))) (g.from x)
    ((g.from x1).pair (g.from x2)) hs2 () ((), ()) u (u, u) now ps
  have r1 := run_fst (QueueSim.sorted (fstSim (ekfCore p) (ekfCore p))) (g.from x1) (g.from x2) () () u u now
    (ps.map Node.Event.snd)
  have r2 := run_snd (QueueSim.sorted (sndSim (ekfCore p) (ekfCore p))) (g.from x1) (g.from x2) (hs _ _) () () u u now
    (ps.map Node.Event.snd)
  rw [r] at r1 r2
  rw [e0] at r0
  rw [e1] at r1
  rw [e2] at r2
  generalize (Node.run ((g.from x).pair ((g.from x1).pair (g.from x2)))
    (Node.start ((g.from x).pair ((g.from x1).pair (g.from x2))) (PQueue.sortedList _ _) ((), (), ()) (u, u, u) now) ps).2 = os
    at r0 r1 r2 hN
  refine ⟨os.map fun o => (o.fst, o.snd.fst, o.snd.snd), ?_, ?_, ?_, ?_⟩
  · rw [r0, List.map_map]
    rfl
  · rw [r1, List.map_map, List.map_map]
    rfl
  · rw [r2, List.map_map, List.map_map]
    rfl
  · intro o ho
    obtain ⟨o', h', rfl⟩ := List.mem_map.1 ho
    cases o' with
    | odom t x P => exact .odom t fun u v w e e1 e2 => (hN t x P h' u v w e e1 e2).1
    | tf t => exact .tf t
    | accel t => exact .accel t

/-- C148: a threshold breaks this.  Of the reading 1 the filter makes the velocity 1/2; of three times that reading it
makes nothing. -/
theorem C148_gated : ∃ r r' : State × Mat15, Ekf.correct (oneVar iVx 1 (.sigmas 2)) 0 1 = some r ∧
    Ekf.correct (oneVar iVx 3 (.sigmas 2)) 0 1 = some r' ∧ r.1 iVx = 1 / 2 ∧ r'.1 iVx = 0 := by
  have hang : ¬ angular iVx := by unfold angular; decide
  have mah : ∀ v : ℝ,
      mahalanobisSq (oneVar iVx v (.sigmas 2)).indices.get (fun _ => v) 1 0 1 = v ^ 2 / 2 ∧
      ((1 : Mat15).submatrix (oneVar iVx v (.sigmas 2)).indices.get (oneVar iVx v (.sigmas 2)).indices.get +
        subR (oneVar iVx v (.sigmas 2)).indices.get 1).det ≠ 0 := by
    intro v
    have h' := mahalanobis_one (m := oneVar iVx v (.sigmas 2)) iVx (oneVar_indices _ _ _) hang 0 1
    simp only [oneVar, Matrix.one_apply_eq, sanitize_one, Dbl.val, Pi.zero_apply] at h'
    have h' := h' (by norm_num)
    refine ⟨h'.1.trans (by norm_num), h'.2⟩
  have h1 := correct_one iVx (oneVar_indices iVx 1 .unlimited) (oneVar_certain iVx 1) 0 (P := 1) PosSemidef.one
  obtain ⟨r, hr, hv⟩ : ∃ r, Ekf.correct (oneVar iVx 1 .unlimited) 0 1 = some r ∧ r.1 iVx = 1 / 2 := by
    refine ⟨_, h1, ?_⟩
    dsimp only
    rw [wrap_motion _ iVx (by decide), if_neg (show ¬ (iVx = iRoll ∨ iVx = iPitch ∨ iVx = iYaw) by decide)]
    simp only [oneVar, sanitize_one, Matrix.one_apply_eq, Dbl.val, Pi.zero_apply]
    norm_num
  refine ⟨r, (0, 1), ?_, ?_, hv, rfl⟩
  · rw [← hr]
    refine (C06_gate _ _ _ _ _ _ (mah 1).2).1 ?_
    show mahalanobisSq (oneVar iVx 1 (.sigmas 2)).indices.get (fun _ => 1) 1 0 1 < _
    rw [(mah 1).1]
    norm_num
  · refine (C06_gate _ _ _ _ _ _ (mah 3).2).2 ?_
    show _ ≤ mahalanobisSq (oneVar iVx 3 (.sigmas 2)).indices.get (fun _ => 3) 1 0 1
    rw [(mah 3).1]
    norm_num

example : ∃ os : List (Out (ekfCore plainPar) × Out (ekfCore plainPar) × Out (ekfCore plainPar)),
    (Node.run ((demoCfg plainPar).from (some 0)) (Node.start ((demoCfg plainPar).from (some 0)) (PQueue.sortedList _ _) () (0 : Fin 6 → ℝ) 0)
      [.sensor "wheels" 1 (some (oneVar iVx 8 .unlimited)), .tick 2 2 true, .sensor "wheels" 3 (some (oneVar iVx 1 .unlimited)), .tick 4 4 true]).2
      = os.map (·.1) ∧
    (Node.run ((demoCfg plainPar).from (some 0)) (Node.start ((demoCfg plainPar).from (some 0)) (PQueue.sortedList _ _) () (0 : Fin 6 → ℝ) 0)
      [.sensor "wheels" 1 (some (oneVar iVx 1 .unlimited)), .tick 2 2 true, .sensor "wheels" 3 (some (oneVar iVx 2 .unlimited)), .tick 4 4 true]).2
      = os.map (·.2.1) ∧
    (Node.run ((demoCfg plainPar).from (some 0)) (Node.start ((demoCfg plainPar).from (some 0)) (PQueue.sortedList _ _) () (0 : Fin 6 → ℝ) 0)
      [.sensor "wheels" 1 (some (oneVar iVx 2 .unlimited)), .tick 2 2 true, .sensor "wheels" 3 (some (oneVar iVx (-1) .unlimited)), .tick 4 4 true]).2
      = os.map (·.2.2) ∧
    ∀ o ∈ os, Out.Super 2 3 o.1 o.2.1 o.2.2 := by
  have hm : ∀ u v w : ℝ, u = 2 * v + 3 * w → (oneVar iVx u .unlimited).Super 2 3 (oneVar iVx v .unlimited) (oneVar iVx w .unlimited) := by
    intro u v w h
    have hk : ∀ w, (oneVar iVx u .unlimited).SameKind (oneVar iVx w .unlimited) := by
      intro w
      refine ⟨rfl, fun i hi => ?_, fun _ _ => rfl, fun _ _ _ _ => rfl, rfl, rfl⟩
      obtain rfl : i = iVx := of_decide_eq_true hi
      decide
    exact ⟨hk v, hk w, fun i _ _ => h⟩
  refine C148_superposition (fun _ => rfl) (demoCfg plainPar) (x := some 0) (x1 := some 0) (x2 := some 0) ?_ 0 0 le_rfl
    [(_, _, _), (_, _, _), (_, _, _), (_, _, _)] ?_ ?_
  · intro u v w e e1 e2
    cases e
    cases e1
    cases e2
    exact fun _ _ => by simp
  · intro t ht
    simp only [List.mem_cons, List.not_mem_nil, or_false] at ht
    rcases ht with rfl | rfl | rfl | rfl
    · exact .sensor _ _ (hm _ _ _ (by norm_num))
    · exact .tick _ _ _
    · exact .sensor _ _ (hm _ _ _ (by norm_num))
    · exact .tick _ _ _
  · simp [Clocked]

end RL
