import Verif.Props.System
import Verif.Props.SystemDemo
import Verif.Props.Sync
import Verif.Props.Carry
/-!
# C127: the answers of a listener behind a node that is told the truth
-/

namespace RL
open Matrix Body Real Sync Listen Est

/-! ## What is stored -/

/-- The message that arrives says how the robot moves. -/
def Tells (c : NodeConf) (f : Int → Kin) : Arrival → Prop
  | .odom o => TellsTruth c f (.odom o.stamp (some o))
  | .accel a => TellsTruth c f (.accel a.stamp (some a))

/-- The node has sent what arrives. -/
def SentBy (sent : List Sent) : Arrival → Prop
  | .odom o => ∃ t, .odom t (some o) ∈ sent
  | .accel a => ∃ t, .accel t (some a) ∈ sent

theorem tells_of_sent {c : NodeConf} {f : Int → Kin} {sent : List Sent} (h : ∀ m ∈ sent, TellsTruth c f m) {e : Arrival}
    (he : SentBy sent e) : Tells c f e := by
  cases e with
  | odom o =>
    obtain ⟨t, ht⟩ := he
    have := h _ ht
    have e : o.stamp = t := this.1
    show TellsTruth c f (.odom o.stamp (some o))
    rw [e]
    exact this
  | accel a =>
    obtain ⟨t, ht⟩ := he
    have := h _ ht
    have e : a.stamp = t := this.1
    show TellsTruth c f (.accel a.stamp (some a))
    rw [e]
    exact this

theorem odomsIn_tells {c : NodeConf} {f : Int → Kin} {es : List Arrival} (h : ∀ e ∈ es, Tells c f e) {o : OdomMsg}
    (ho : o ∈ odomsIn es) : TellsTruth c f (.odom o.stamp (some o)) := by
  obtain ⟨e, he, h1⟩ := List.mem_filterMap.1 ho
  have := h e he
  cases e with
  | odom o' => injection h1 with h1; subst h1; exact this
  | accel a => cases h1

theorem accelsIn_tells {c : NodeConf} {f : Int → Kin} {es : List Arrival} (h : ∀ e ∈ es, Tells c f e) {a : AccelMsg}
    (ha : a ∈ accelsIn es) : TellsTruth c f (.accel a.stamp (some a)) := by
  obtain ⟨e, he, h1⟩ := List.mem_filterMap.1 ha
  have := h e he
  cases e with
  | odom o' => cases h1
  | accel a => injection h1 with h1; subst h1; exact this

/-- A pair of true messages is stored as the true state. -/
theorem fullOf_true {c : NodeConf} {f : Int → Kin} (hup : ∀ t, HeadUp (f t)) {o : OdomMsg} {a : AccelMsg}
    (ho : TellsTruth c f (.odom o.stamp (some o))) (ha : TellsTruth c f (.accel a.stamp (some a))) (hs : o.stamp = a.stamp) :
    UpToTurns (fullOf o a).x (f o.stamp).vec := by
  obtain ⟨-, -, -, h1, h2, h3⟩ := ho
  obtain ⟨-, -, h4⟩ := ha
  rw [← hs] at h4
  have hm : o.ori.mat = rot (f o.stamp).eul := congrArg Tf.rot h1
  have hp : o.pos = (f o.stamp).pos := congrArg Tf.org h1
  have hang : ∀ i, ∃ n : ℤ, quatToRPY o.ori i = (f o.stamp).eul i + n * (2 * π) := by
    intro i
    unfold quatToRPY
    rw [hm]
    exact getRPY_rot (hup _) i
  have hl : ∀ i, (o.lin i).val = (f o.stamp).vel i := fun i => by rw [h2]; rfl
  have hw : ∀ i, (o.ang i).val = (f o.stamp).rate i := fun i => by rw [h3]; rfl
  intro i
  refine ⟨fun hi => ?_, fun hi => ?_⟩
  · rcases hi with rfl | rfl | rfl
    · exact hang 0
    · exact hang 1
    · exact hang 2
  · unfold angular at hi
    fin_cases i
    · exact congrFun hp 0
    · exact congrFun hp 1
    · exact congrFun hp 2
    · exact absurd (Or.inl rfl) hi
    · exact absurd (Or.inr (Or.inl rfl)) hi
    · exact absurd (Or.inr (Or.inr rfl)) hi
    · exact hl 0
    · exact hl 1
    · exact hl 2
    · exact hw 0
    · exact hw 1
    · exact hw 2
    · exact congrFun h4 0
    · exact congrFun h4 1
    · exact congrFun h4 2

/-- A listener with room for a state that has been called has one. -/
theorem heard_some {size : ℕ} (hz : 0 < size) {ms : List MsgPair} (hm : ms ≠ []) : (heard size ms).buf.items ≠ [] := by
  induction ms using List.reverseRecOn with
  | nil => exact absurd rfl hm
  | append_singleton ms m ih =>
    have e : (heard size (ms ++ [m])).buf = (heard size ms).buf.setState ⟨stampSec m.1.stamp, fullOf m.1 m.2⟩ := by
      unfold heard
      rw [List.foldl_append]
      rfl
    have hg := C44_buffer_partial size (ms.map fun m => (Op.set ⟨stampSec m.1.stamp, fullOf m.1 m.2⟩ : Op Full))
    have hcap : capacityAfter size (ms.map fun m => (Op.set ⟨stampSec m.1.stamp, fullOf m.1 m.2⟩ : Op Full)) = size := by
      rw [← run_cap]
      clear * -
      induction ms using List.reverseRecOn with
      | nil => rfl
      | append_singleton ms m ih =>
        unfold Buf.run at ih ⊢
        rw [List.map_append, List.foldl_append]
        exact (setState_cap _ _).trans ih
    have hcap2 : (heard size ms).buf.cap = size := by rw [heard_buf, run_cap, hcap]
    rw [← heard_buf, hcap] at hg
    rw [e, setState_eq _ _ hg.1 (by rw [hcap2]; exact hg.2.1)]
    split
    · rename_i h
      obtain ⟨l, h, -⟩ := h
      intro h0
      rw [h0] at h
      cases h
    · intro h0
      have := congrArg List.length h0
      simp only [List.length_drop, place_length, List.length_nil, hcap2] at this
      omega

/-- The state of an answer comes from one that is stored. -/
theorem written_cases (b : Buf Full) (ext : Full → ℝ → Full) (t : ℝ) (ho : Ordered b.items) (hne : b.items ≠ []) :
    ∃ a ∈ b.items, a.time = t ∧ written (b.getState ext t) = a.val ∨ written (b.getState ext t) = ext a.val (t - a.time) := by
  rcases C45_total b t ho with h | ⟨l, a, r, h, h1, h2⟩ | ⟨l, a, c, r, h, h1, h2, h3⟩ | ⟨l, a, h, h1⟩ | ⟨a, r, h, h1⟩
  · exact absurd h hne
  · exact ⟨a, by rw [h]; simp, Or.inl ⟨h1, by rw [C45_exact b ext t l r a h h1 h2]; rfl⟩⟩
  · exact ⟨a, by rw [h]; simp, Or.inr (by rw [C45_between b ext t l r a c h h1 h2 h3]; rfl)⟩
  · exact ⟨a, by rw [h]; simp, Or.inr (by rw [C45_after b ext t l a h h1]; rfl)⟩
  · exact ⟨a, by rw [h]; simp, Or.inr (by rw [C45_before b ext t r a h h1]; rfl)⟩

/-- Predicting a true state gives the true state at the later or earlier time. -/
theorem predicted_true {f : Int → Kin} (hf : Follows f) (hup : ∀ t, HeadUp (f t)) (Q : Mat15) {e : Full} {s : Int}
    (he : UpToTurns e.x (f s).vec) (d : Int) (hd : |d| ≤ 9000000000000000000) :
    ∃ r, predicted Q e (toSec d) = some r ∧ UpToTurns r.x (f (s + d)).vec := by
  have hc : cos (e.x iPitch) ≠ 0 := by
    obtain ⟨k, hk⟩ := (he 4).1 (Or.inr (Or.inl rfl))
    have hk : e.x iPitch = (f s).eul 1 + k * (2 * π) := hk
    rw [hk, cos_add_int_mul_two_pi]
    exact (hup s).ne'
  unfold predicted
  rw [fromSeconds_toSec d hd, Option.bind_some]
  unfold Ekf.predict
  rw [applyControl_none estPar (fun _ => rfl), if_neg hc]
  refine ⟨_, rfl, ?_⟩
  show UpToTurns (wrapStateAngles ((transferF e.x (toSec d)).mulVec e.x)) _
  rw [C03_rigid_body]
  exact (wrap_upToTurns _).trans ((move_turns he _).trans (hf s d).symm)

/-! ## The answers -/

/-- C127: whatever arrives of what a node says that says the truth, in whatever order: the state with which the listener
answers is the true one, of a time that is later than the one asked for by the fraction of a second in the stamp of a message
that has arrived. -/
theorem C127_late {c : NodeConf} {f : Int → Kin} (hf : Follows f) (hup : ∀ t, HeadUp (f t)) {es : List Arrival}
    (hes : ∀ e ∈ es, Tells c f e) {size : ℕ} (hz : 0 < size) (hne : calls es ≠ []) {Q : Mat15} {ext : Full → ℝ → Full}
    (hext : Predicts Q ext) (t : Int) (ht : ∀ o ∈ odomsIn es, |t - o.stamp| ≤ 8000000000000000000) :
    ∃ o ∈ odomsIn es, UpToTurns (written ((listener size es).buf.getState ext (toSec t))).x (f (t + o.stamp % 1000000000)).vec := by
  have hl : listener size es = heard size (calls es) := rfl
  rw [hl]
  obtain ⟨a, ha, hw⟩ := written_cases (heard size (calls es)).buf ext (toSec t) (heard_ordered size _) (heard_some hz hne)
  obtain ⟨m, hm, rfl⟩ := heard_item ha
  obtain ⟨h1, h2, h3⟩ := C112_same_stamp es m hm
  have htrue := fullOf_true hup (odomsIn_tells hes h1) (accelsIn_tells hes h2) h3
  refine ⟨m.1, h1, ?_⟩
  have hdiv : m.1.stamp = 1000000000 * stampSec m.1.stamp + m.1.stamp % 1000000000 := by
    unfold stampSec
    omega
  have hmod := Int.emod_nonneg m.1.stamp (show (1000000000 : Int) ≠ 0 by norm_num)
  have hmod2 := Int.emod_lt_of_pos m.1.stamp (show (0 : Int) < 1000000000 by norm_num)
  have hsec : ((stampSec m.1.stamp : Int) : ℝ) = toSec (1000000000 * stampSec m.1.stamp) := by
    unfold toSec
    push_cast
    ring
  rcases hw with ⟨hw1, hw2⟩ | hw
  · dsimp only at hw1 hw2
    have : t = 1000000000 * stampSec m.1.stamp := by
      rw [hsec] at hw1
      unfold toSec at hw1
      have h9 : ((1000000000 * stampSec m.1.stamp : Int) : ℝ) = (t : ℝ) := by linarith
      exact (Int.cast_injective h9).symm
    rw [hw2, show t + m.1.stamp % 1000000000 = m.1.stamp by omega]
    exact htrue
  · dsimp only at hw
    have e : toSec t - ((stampSec m.1.stamp : Int) : ℝ) = toSec (t - 1000000000 * stampSec m.1.stamp) := by
      rw [hsec]
      unfold toSec
      push_cast
      ring
    rw [e] at hw
    have hb := abs_le.1 (ht _ h1)
    obtain ⟨r, hr1, hr2⟩ := predicted_true hf hup Q htrue (t - 1000000000 * stampSec m.1.stamp) (by rw [abs_le]; omega)
    rw [hw, hext _ _ _ hr1]
    rw [show m.1.stamp + (t - 1000000000 * stampSec m.1.stamp) = t + m.1.stamp % 1000000000 by omega] at hr2
    exact hr2

theorem callback_frames {c : NodeConf} {f : Int → Kin} {ms : List MsgPair} (hms : ∀ m ∈ ms, TellsTruth c f (.odom m.1.stamp (some m.1)))
    (size : ℕ) (hne : ms ≠ []) (hw : c.frames.world ≠ "") (hb : c.frames.baseOut ≠ "") :
    (heard size ms).base = c.frames.baseOut ∧ (heard size ms).world = c.frames.world := by
  induction ms using List.reverseRecOn with
  | nil => exact absurd rfl hne
  | append_singleton ms m ih =>
    have e : heard size (ms ++ [m]) = (heard size ms).callback m.1 m.2 := by
      unfold heard
      rw [List.foldl_append]
      rfl
    obtain ⟨-, h1, h2, -⟩ := hms m (by simp)
    rw [e]
    unfold Listener.callback
    dsimp only
    by_cases h0 : ms = []
    · subst h0
      have e1 : (heard size []).base = "" := rfl
      have e2 : (heard size []).world = "" := rfl
      rw [e1, e2, if_pos rfl, if_pos rfl]
      exact ⟨h2, h1⟩
    · obtain ⟨i1, i2⟩ := ih (fun m hm => hms m (List.mem_append_left _ hm)) h0
      rw [i1, i2, if_neg hb, if_neg hw]
      exact ⟨rfl, rfl⟩

theorem listener_frames {c : NodeConf} {f : Int → Kin} {es : List Arrival} (hes : ∀ e ∈ es, Tells c f e) (size : ℕ)
    (hne : calls es ≠ []) (hw : c.frames.world ≠ "") (hb : c.frames.baseOut ≠ "") :
    (listener size es).base = c.frames.baseOut ∧ (listener size es).world = c.frames.world :=
  callback_frames (fun m hm => odomsIn_tells hes (C112_same_stamp es m hm).1) size hne hw hb

/-- A query about the base answers with the state of the estimator. -/
theorem base_query {c : NodeConf} {f : Int → Kin} {es : List Arrival} (hes : ∀ e ∈ es, Tells c f e) (size : ℕ)
    (hne : calls es ≠ []) (hw : c.frames.world ≠ "") (hb : c.frames.baseOut ≠ "") (ext : Full → ℝ → Full) (tf : TfBuffer)
    (tree : Listen.Frames) (depth : ℕ) (cache : Cache) (time : ℝ) :
    ((listener size es).getState ext tf tree depth cache time c.frames.baseOut "").1 =
      .state (written ((listener size es).buf.getState ext time)) := by
  obtain ⟨h1, h2⟩ := listener_frames hes size hne hw hb
  unfold Listener.getState
  rw [h1, h2, if_neg (by rintro (h | h); exacts [hb h, hw h])]
  simp

/-- C127, partial: from the parameters of a node and the messages it gets to the answers of a listener.  A node without
control is told the truth about a motion its motion model integrates exactly (see `C117_honest_partial`).  A listener gets any
of its messages in any order, and at least one pair.  It answers every query about the base, for times before, between and
after the messages, with the true state; but that of a time which is less than a second later than the one asked for. -/
theorem C127_answers_partial {o : Nav.Given} {c : NodeConf} (h : loadNode o = some c) (hu : ¬ o.On "use_control")
    (hw : c.frames.world ≠ "") (hb : c.frames.base ≠ "") (hbo : c.frames.baseOut ≠ "") (P : MQueue (ekfCore c.par)) (f : Int → Kin)
    (hf : Follows f) (hup : ∀ t, HeadUp (f t)) (hlev : o.On "two_d_mode" → ∀ t, InPlane (f t)) (ctl0 : Fin 6 → ℝ) (now : Int)
    (d : Differ) (evs : List Sys.Ev) (ha : (Sys.start c.sys P () ctl0 now d).Holds (ekfView c.par) c.sys
      (fun s e => TrueMessage c f s e ∧ NotTooLate c f s e) evs)
    (es : List Arrival) (hes : ∀ e ∈ es, SentBy ((Sys.start c.sys P () ctl0 now d).run (ekfView c.par) c.sys evs).2 e)
    (hne : calls es ≠ []) {size : ℕ} (hz : 0 < size) {Q : Mat15} {ext : Full → ℝ → Full} (hext : Predicts Q ext)
    (tf : TfBuffer) (tree : Listen.Frames) (depth : ℕ) (cache : Cache) (t : Int)
    (ht : ∀ o ∈ odomsIn es, |t - o.stamp| ≤ 8000000000000000000) :
    ∃ r, ((listener size es).getState ext tf tree depth cache (toSec t) c.frames.baseOut "").1 = .state r ∧
      ∃ m ∈ odomsIn es, UpToTurns r.x (f (t + m.stamp % 1000000000)).vec := by
  have hT : ∀ e ∈ es, Tells c f e := fun e he =>
    tells_of_sent (C117_honest_partial h hu hw hb P f hf hup hlev ctl0 now d evs ha) (hes e he)
  exact ⟨_, base_query hT size hne hw hbo ext tf tree depth cache _, C127_late hf hup hT hz hne hext t ht⟩

/-- C127, partial: when the stamps are whole seconds the answers are true. -/
theorem C127_whole_seconds_partial {c : NodeConf} {f : Int → Kin} (hf : Follows f) (hup : ∀ t, HeadUp (f t)) {es : List Arrival}
    (hes : ∀ e ∈ es, Tells c f e) {size : ℕ} (hz : 0 < size) (hne : calls es ≠ []) (hw : c.frames.world ≠ "")
    (hbo : c.frames.baseOut ≠ "") {Q : Mat15} {ext : Full → ℝ → Full} (hext : Predicts Q ext)
    (hwhole : ∀ o ∈ odomsIn es, (1000000000 : Int) ∣ o.stamp) (tf : TfBuffer) (tree : Listen.Frames) (depth : ℕ) (cache : Cache)
    (t : Int) (ht : ∀ o ∈ odomsIn es, |t - o.stamp| ≤ 8000000000000000000) :
    ∃ r, ((listener size es).getState ext tf tree depth cache (toSec t) c.frames.baseOut "").1 = .state r ∧
      UpToTurns r.x (f t).vec := by
  obtain ⟨m, hm, h⟩ := C127_late hf hup hes hz hne hext t ht
  rw [Int.emod_eq_zero_of_dvd (hwhole m hm), add_zero] at h
  exact ⟨_, base_query hes size hne hw hbo ext tf tree depth cache _, h⟩

/-- C127: a robot that stands is always where the listener says. -/
theorem C127_standing {c : NodeConf} {f : Int → Kin} (hr : Rests f) (hf : Follows f) (hup : ∀ t, HeadUp (f t)) {es : List Arrival}
    (hes : ∀ e ∈ es, Tells c f e) {size : ℕ} (hz : 0 < size) (hne : calls es ≠ []) (hw : c.frames.world ≠ "")
    (hbo : c.frames.baseOut ≠ "") {Q : Mat15} {ext : Full → ℝ → Full} (hext : Predicts Q ext) (tf : TfBuffer)
    (tree : Listen.Frames) (depth : ℕ) (cache : Cache) (t : Int) (ht : ∀ o ∈ odomsIn es, |t - o.stamp| ≤ 8000000000000000000) :
    ∃ r, ((listener size es).getState ext tf tree depth cache (toSec t) c.frames.baseOut "").1 = .state r ∧
      UpToTurns r.x (f t).vec := by
  obtain ⟨m, hm, h⟩ := C127_late hf hup hes hz hne hext t ht
  exact ⟨_, base_query hes size hne hw hbo ext tf tree depth cache _, h.trans (hr _ _)⟩

/-- C127: a query for a `rclcpp::Time` other than zero is answered with the true state of a time less than a second away. -/
theorem C127_stamped {c : NodeConf} {f : Int → Kin} (hf : Follows f) (hup : ∀ t, HeadUp (f t)) {es : List Arrival}
    (hes : ∀ e ∈ es, Tells c f e) {size : ℕ} (hz : 0 < size) (hne : calls es ≠ []) (hw : c.frames.world ≠ "")
    (hbo : c.frames.baseOut ≠ "") {Q : Mat15} {ext : Full → ℝ → Full} (hext : Predicts Q ext) (tf : TfBuffer)
    (tree : Listen.Frames) (depth : ℕ) (cache : Cache) (ns now : Int) (hns : 0 < ns)
    (ht : ∀ o ∈ odomsIn es, |ns - o.stamp| ≤ 7000000000000000000) :
    ∃ r s, ((listener size es).getState ext tf tree depth cache (queryTime ns now) c.frames.baseOut "").1 = .state r ∧
      UpToTurns r.x (f s).vec ∧ |s - ns| < 1000000000 := by
  have e : ((queryTime ns now : Int) : ℝ) = toSec (1000000000 * (ns / 1000000000)) := by
    unfold queryTime toSec
    rw [if_neg hns.ne', Int.tdiv_eq_ediv_of_nonneg hns.le]
    push_cast
    ring
  have hd : ns % 1000000000 = ns - 1000000000 * (ns / 1000000000) := by omega
  have d1 := Int.emod_nonneg ns (show (1000000000 : Int) ≠ 0 by norm_num)
  have d2 := Int.emod_lt_of_pos ns (show (0 : Int) < 1000000000 by norm_num)
  obtain ⟨m, hm, h⟩ := C127_late hf hup hes hz hne hext (1000000000 * (ns / 1000000000)) (fun o ho => by
    have := abs_le.1 (ht o ho)
    rw [abs_le]
    omega)
  have m1 := Int.emod_nonneg m.stamp (show (1000000000 : Int) ≠ 0 by norm_num)
  have m2 := Int.emod_lt_of_pos m.stamp (show (0 : Int) < 1000000000 by norm_num)
  rw [e]
  refine ⟨_, _, base_query hes size hne hw hbo ext tf tree depth cache _, h, ?_⟩
  rw [abs_lt]
  omega

/-- C127: the same for every frame.  An answer is the pose and the velocity of the frame asked for, if the transforms are
right, on a robot as it was or will be less than a second later. -/
theorem C127_frames {c : NodeConf} {f : Int → Kin} (hf : Follows f) (hup : ∀ t, HeadUp (f t)) {es : List Arrival}
    (hes : ∀ e ∈ es, Tells c f e) {size : ℕ} (hz : 0 < size) (hne : calls es ≠ []) (hw : c.frames.world ≠ "")
    (hbo : c.frames.baseOut ≠ "") {Q : Mat15} {ext : Full → ℝ → Full} (hext : Predicts Q ext) (tf : TfBuffer) (htf : SaneBuf tf)
    {tree : Listen.Frames} (htr : IsTree tree) {depth : ℕ} (hd : tree.length < depth) (cache : Cache) (hc : CacheOk tree cache)
    (t : Int) (ht : ∀ o ∈ odomsIn es, |t - o.stamp| ≤ 8000000000000000000) (frame worldFrame : String) (r : Full)
    (h : ((listener size es).getState ext tf tree depth cache (toSec t) frame worldFrame).1 = .state r) :
    ∃ m ∈ odomsIn es, ∀ (T : ℝ → Tf) (τ : ℝ), T τ = (f (t + m.stamp % 1000000000)).tf →
      Moving T τ (f (t + m.stamp % 1000000000)).vel (f (t + m.stamp % 1000000000)).rate →
      ∃ world mount : Tf,
        (frame = c.frames.baseOut ∧ mount = Tf.id ∨ ∃ ns, LookedUpAt (toSec t) ns ∧ tf c.frames.baseOut frame ns = some mount) ∧
        ((worldFrame = "" ∨ worldFrame = c.frames.world) ∧ world = Tf.id ∨
          ∃ ns, LookedUpAt (toSec t) ns ∧ tf worldFrame c.frames.world ns = some world) ∧
        Body.pose r.x = (world.mul (T τ)).mul mount ∧
        Moving (fun s => (world.mul (T s)).mul mount) τ (Body.kin r.x).vel (Body.kin r.x).rate := by
  obtain ⟨m, hm, hU⟩ := C127_late hf hup hes hz hne hext t ht
  obtain ⟨e1, e2⟩ := listener_frames hes size hne hw hbo
  obtain ⟨k1, k2, k3, -⟩ := kin_turns hU
  refine ⟨m, hm, fun T τ hT hv => ?_⟩
  have := C48_query (listener size es) ext tf htf htr hd cache hc (toSec t) frame worldFrame r h T τ (hT.trans k1.symm)
    (by rw [k2, k3]; exact hv)
  rw [e1, e2] at this
  exact this

/-- C127, refuted: when no stamp is a whole second, no answer about a robot that is never twice at the same place is true,
whatever time is asked for. -/
theorem C127_never_true {c : NodeConf} {f : Int → Kin} (hf : Follows f) (hup : ∀ t, HeadUp (f t)) {es : List Arrival}
    (hes : ∀ e ∈ es, Tells c f e) {size : ℕ} (hz : 0 < size) (hne : calls es ≠ []) (hw : c.frames.world ≠ "")
    (hbo : c.frames.baseOut ≠ "") {Q : Mat15} {ext : Full → ℝ → Full} (hext : Predicts Q ext) (tf : TfBuffer)
    (tree : Listen.Frames) (depth : ℕ) (cache : Cache) (t : Int) (ht : ∀ o ∈ odomsIn es, |t - o.stamp| ≤ 8000000000000000000)
    (hfrac : ∀ o ∈ odomsIn es, ¬ (1000000000 : Int) ∣ o.stamp) (hmove : ∀ s s', (f s).pos = (f s').pos → s = s') :
    ∃ r, ((listener size es).getState ext tf tree depth cache (toSec t) c.frames.baseOut "").1 = .state r ∧
      ¬ UpToTurns r.x (f t).vec := by
  obtain ⟨m, hm, h⟩ := C127_late hf hup hes hz hne hext t ht
  refine ⟨_, base_query hes size hne hw hbo ext tf tree depth cache _, fun h2 => ?_⟩
  have h3 := h.symm.trans h2
  have h4 : (f (t + m.stamp % 1000000000)).pos = (f t).pos := by
    funext i
    fin_cases i
    · exact (h3 0).2 (by unfold angular; decide)
    · exact (h3 1).2 (by unfold angular; decide)
    · exact (h3 2).2 (by unfold angular; decide)
  have h5 := hmove _ _ h4
  exact hfrac m hm (Int.dvd_of_emod_eq_zero (by omega))

/-! ## A robot that drives -/

/-- What a node says about it at a time. -/
noncomputable def drivenPair (c : NodeConf) (t : Int) : List Arrival :=
  [.odom { driven c.frames.world t with child := c.frames.baseOut },
   .accel { frame := c.frames.baseOut, stamp := t, lin := 0, ang := 0, cov := fun _ => 0 }]

theorem drivenPair_tells (c : NodeConf) (t : Int) : ∀ e ∈ drivenPair c t, Tells c drive e := by
  intro e he
  unfold drivenPair at he
  simp only [List.mem_cons, List.not_mem_nil, or_false] at he
  rcases he with rfl | rfl
  · refine ⟨rfl, rfl, rfl, ?_, ?_, ?_⟩
    · unfold Kin.tf
      dsimp only [driven]
      rw [drive_eq]
      simp only [rot_zero]
      congr 1
      ext i j
      fin_cases i <;> fin_cases j <;> simp [Quat.mat, Quat.len2]
    · intro i
      dsimp only [driven]
      rw [drive_eq]
      fin_cases i <;> rfl
    · intro i
      dsimp only [driven]
      rw [drive_eq]
      fin_cases i <;> rfl
  · refine ⟨rfl, rfl, ?_⟩
    dsimp only
    rw [drive_eq]

theorem drivenPair_calls (c : NodeConf) (t : Int) : calls (drivenPair c t) ≠ [] := by
  simp [drivenPair, calls, arriveAll, arrive, addFst, addSnd, Sync.put, Sync.check, List.lookup, driven, queueSize]

/-- The conditions of the theorems are met by the robot that drives (for the node, see the example of C117): with the stamp 1.5
no answer is true, with the stamp 2 all are. -/
example (c : NodeConf) (t : Int) : Follows drive ∧ (∀ t, HeadUp (drive t)) ∧ (∀ e ∈ drivenPair c t, Tells c drive e) ∧
    calls (drivenPair c t) ≠ [] ∧ (∀ s s', (drive s).pos = (drive s').pos → s = s') ∧
    (∀ o ∈ odomsIn (drivenPair c 1500000000), ¬ (1000000000 : Int) ∣ o.stamp) ∧
    ∀ o ∈ odomsIn (drivenPair c 2000000000), (1000000000 : Int) ∣ o.stamp := by
  refine ⟨C97_straight ahead rfl, fun t => ?_, drivenPair_tells c t, drivenPair_calls c t, fun s s' h => ?_, ?_, ?_⟩
  · unfold HeadUp
    rw [drive_eq]
    simp
  · rw [drive_eq, drive_eq] at h
    have := congrFun h 0
    simp only [toSec, Matrix.cons_val_zero] at this
    have : (s : ℝ) = s' := by linarith
    exact_mod_cast this
  · intro o ho
    simp [drivenPair, odomsIn, driven] at ho
    subst ho
    norm_num
  · intro o ho
    simp [drivenPair, odomsIn, driven] at ho
    subst ho
    norm_num

/-- A prediction function as the theorems ask for it. -/
example (Q : Mat15) : ∃ ext : Full → ℝ → Full, Predicts Q ext :=
  ⟨fun e dt => (predicted Q e dt).getD e, fun e dt r h => by simp [h]⟩

end RL
