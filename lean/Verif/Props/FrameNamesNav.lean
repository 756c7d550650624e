import Verif.Model.Navsat
import Verif.Props.FrameNames
/-!
# C145 for `navsat_transform`

The frames this node gets to know are those of its messages; the frame of the projection has a fixed name ("utm" or
"local_enu").
-/

namespace RL.Nav

/-- The members with the frames renamed. -/
def St.renamed (r : Renaming) (s : St) : St :=
  { s with base := r.nm s.base, world := r.nm s.world, gpsFrame := r.nm s.gpsFrame }

def FixMsg.renamed (r : Renaming) (m : FixMsg) : FixMsg := { m with frame := r.nm m.frame }
def HeadingMsg.renamed (r : Renaming) (m : HeadingMsg) : HeadingMsg := { m with frame := r.nm m.frame }
def OdoMsg.renamed (r : Renaming) (m : OdoMsg) : OdoMsg := { m with frame := r.nm m.frame, child := r.nm m.child }

/-- What is sent, under the new names. -/
def Out.renamed (r : Renaming) : Out → Out
  | .gpsOdom pos cov stamp frame => .gpsOdom pos cov stamp (r.nm frame)
  | .filtered lat lon alt cov stamp frame => .filtered lat lon alt cov stamp (r.nm frame)
  | .ll p => .ll p
  | .map p => .map p
  | .broadcast t parent child => .broadcast t (r.nm parent) (r.nm child)

/-- The result of an event or a run, under the new names. -/
def Res.renamed (r : Renaming) (x : Res) : Res := { outs := x.outs.map (Out.renamed r), st := x.st.map (St.renamed r) }

/-- The same thing happens, with the frames renamed. -/
inductive Ev.Renamed (r : Renaming) : Ev → Ev → Prop
  | fix (m) : Renamed r (.fix m) (.fix (m.renamed r))
  | imu (b b' m) : TfBuffer.Renamed r b b' → Renamed r (.imu b m) (.imu b' (m.renamed r))
  | odom (b b' m) : TfBuffer.Renamed r b b' → Renamed r (.odom b m) (.odom b' (m.renamed r))
  | timer (b b') : TfBuffer.Renamed r b b' → Renamed r (.timer b) (.timer b')
  | datum (d) : Renamed r (.datum d) (.datum d)
  | toLL (v) : Renamed r (.toLL v) (.toLL v)
  | fromLL (lat lon alt) : Renamed r (.fromLL lat lon alt) (.fromLL lat lon alt)
  | setZone (z) : Renamed r (.setZone z) (.setZone z)

/-- The frame of the projection keeps its name: it is not one of the robot's. -/
def KeepsGrid (r : Renaming) : Prop := r.nm "utm" = "utm" ∧ r.nm "local_enu" = "local_enu"

variable {r : Renaming} {b b' : TfBuffer} {g : Geo} {p : Par}

theorem lookup_renamed (hb : TfBuffer.Renamed r b b') (x y : String) (t : Int) :
    lookupTransformSafe b' (r.nm x) (r.nm y) t = lookupTransformSafe b x y t :=
  Renaming.lookup (c := ⟨b, "", "", false, fun _ => 0, 0, 0⟩) hb x y t

theorem setTransformGps_renamed (s : St) (lat lon alt : ℝ) :
    (s.renamed r).setTransformGps g p lat lon alt = (s.setTransformGps g p lat lon alt).renamed r := by
  unfold St.setTransformGps
  by_cases h : p.useLocal = true
  · rw [if_pos h, if_pos h]; rfl
  · rw [if_neg h, if_neg h]
    change (match g.forward lat lon (if s.forceUtm then s.zone else -1) with | none => _ | some u => _) = _
    cases g.forward lat lon (if s.forceUtm then s.zone else -1) <;> rfl

theorem imu_renamed (hb : TfBuffer.Renamed r b b') (s : St) (m : HeadingMsg) :
    (s.renamed r).imu b' (m.renamed r) = (s.imu b m).renamed r := by
  unfold St.imu
  have hl : lookupTransformSafe b' (s.renamed r).base (m.renamed r).frame (m.renamed r).stamp =
      lookupTransformSafe b s.base m.frame m.stamp := lookup_renamed hb _ _ _
  rw [hl]
  change (if s.hasOdom = true then _ else _) = _
  by_cases h : s.hasOdom = true
  · rw [if_pos h, if_pos h]
    cases lookupTransformSafe b s.base m.frame m.stamp <;> rfl
  · rw [if_neg h, if_neg h]

theorem setTransformOdometry_renamed (hb : TfBuffer.Renamed r b b') (s : St) (m : OdoMsg) :
    (s.renamed r).setTransformOdometry b' p (m.renamed r) = (s.setTransformOdometry b p m).renamed r := by
  unfold St.setTransformOdometry
  dsimp only
  change (if (!s.good && p.odomYaw && !s.manual) = true then _ else _) = _
  by_cases h : (!s.good && p.odomYaw && !s.manual) = true
  · rw [if_pos h, if_pos h]
    exact imu_renamed hb { s with start := m.pose, hasOdom := true } { frame := m.child, stamp := m.stamp, ori := m.ori }
  · rw [if_neg h, if_neg h]
    rfl

theorem setManualDatum_renamed (hb : TfBuffer.Renamed r b b') (s : St) :
    (s.renamed r).setManualDatum g b' p = (s.setManualDatum g b p).renamed r := by
  unfold St.setManualDatum
  dsimp only
  rw [show (s.renamed r).setTransformGps g p (s.renamed r).datum.lat (s.renamed r).datum.lon (s.renamed r).datum.alt =
    (s.setTransformGps g p s.datum.lat s.datum.lon s.datum.alt).renamed r from setTransformGps_renamed s _ _ _]
  generalize s.setTransformGps g p s.datum.lat s.datum.lon s.datum.alt = s1
  have h1 := setTransformOdometry_renamed (p := p) hb s1
    { frame := s1.world, child := s1.base, stamp := 0, pos := 0, ori := ⟨0, 0, 0, 1⟩, cov := fun _ => 0 }
  rw [show ({ frame := (s1.renamed r).world, child := (s1.renamed r).base, stamp := 0, pos := 0, ori := ⟨0, 0, 0, 1⟩
              cov := fun _ => 0 } : OdoMsg) = OdoMsg.renamed r
      { frame := s1.world, child := s1.base, stamp := 0, pos := 0, ori := ⟨0, 0, 0, 1⟩, cov := fun _ => 0 } from rfl, h1]
  generalize s1.setTransformOdometry b p _ = s2
  exact imu_renamed hb s2 { frame := s2.base, stamp := 0, ori := s2.datum.ori }

theorem robotOriginCartesian_renamed (hb : TfBuffer.Renamed r b b') (s : St) (v : V3) :
    (s.renamed r).robotOriginCartesian b' p v = s.robotOriginCartesian b p v := by
  unfold St.robotOriginCartesian
  rw [show lookupTransformSafe b' (s.renamed r).base (s.renamed r).gpsFrame 0 =
    lookupTransformSafe b s.base s.gpsFrame 0 from lookup_renamed hb _ _ _]
  cases lookupTransformSafe b s.base s.gpsFrame 0 <;> rfl

theorem computeTransform_renamed (hb : TfBuffer.Renamed r b b') (s : St) :
    (s.renamed r).computeTransform g b' p = (s.computeTransform g b p).renamed r := by
  unfold St.computeTransform
  dsimp only
  have h0 : (if (!(s.renamed r).good && (s.renamed r).hasOdom && (s.renamed r).manual) = true then
      (s.renamed r).setManualDatum g b' p else s.renamed r) =
      (if (!s.good && s.hasOdom && s.manual) = true then s.setManualDatum g b p else s).renamed r := by
    change (if (!s.good && s.hasOdom && s.manual) = true then _ else _) = _
    by_cases h : (!s.good && s.hasOdom && s.manual) = true
    · rw [if_pos h, if_pos h, setManualDatum_renamed hb]
    · rw [if_neg h, if_neg h]
  rw [h0]
  generalize (if (!s.good && s.hasOdom && s.manual) = true then s.setManualDatum g b p else s) = s1
  change (if (!s1.good && s1.hasOdom && s1.hasGps && s1.hasImu) = true then _ else _) = _
  by_cases h : (!s1.good && s1.hasOdom && s1.hasGps && s1.hasImu) = true
  · rw [if_pos h, if_pos h]
    have hv : (if (s1.renamed r).manual = true then (s1.renamed r).cart
        else (s1.renamed r).robotOriginCartesian b' p (s1.renamed r).cart) =
        (if s1.manual = true then s1.cart else s1.robotOriginCartesian b p s1.cart) := by
      rw [robotOriginCartesian_renamed hb]; rfl
    rw [hv]
    rfl
  · rw [if_neg h, if_neg h]

theorem fix_renamed (s : St) (m : FixMsg) : (s.renamed r).fix g p (m.renamed r) = (s.fix g p m).map (St.renamed r) := by
  obtain ⟨frame, stamp, fx, pos, cov⟩ := m
  unfold St.fix FixMsg.renamed
  dsimp only
  cases fx with
  | false => rfl
  | true =>
    cases pos with
    | none => rfl
    | some q =>
      obtain ⟨lat, lon, alt⟩ := q
      dsimp only
      have h0 : (if (!(s.renamed r).good && !(s.renamed r).manual) = true then
          St.setTransformGps g p { s.renamed r with gpsFrame := r.nm frame } lat lon alt
          else { s.renamed r with gpsFrame := r.nm frame }) =
          (if (!s.good && !s.manual) = true then St.setTransformGps g p { s with gpsFrame := frame } lat lon alt
            else { s with gpsFrame := frame }).renamed r := by
        change (if (!s.good && !s.manual) = true then _ else _) = _
        by_cases h : (!s.good && !s.manual) = true
        · rw [if_pos h, if_pos h]
          exact setTransformGps_renamed { s with gpsFrame := frame } _ _ _
        · rw [if_neg h, if_neg h]
          rfl
      rw [h0]
      cases g.forward lat lon (-1) <;> rfl

theorem odom_renamed (hb : TfBuffer.Renamed r b b') (s : St) (m : OdoMsg) :
    (s.renamed r).odom b' p (m.renamed r) = (s.odom b p m).renamed r := by
  unfold St.odom
  dsimp only
  have h0 : (if s.good = true then { s.renamed r with world := (m.renamed r).frame, base := (m.renamed r).child }
      else St.setTransformOdometry b' p { s.renamed r with world := (m.renamed r).frame, base := (m.renamed r).child }
        (m.renamed r)) =
      (if s.good = true then { s with world := m.frame, base := m.child }
        else St.setTransformOdometry b p { s with world := m.frame, base := m.child } m).renamed r := by
    by_cases h : s.good = true
    · rw [if_pos h, if_pos h]; rfl
    · rw [if_neg h, if_neg h]
      exact setTransformOdometry_renamed hb { s with world := m.frame, base := m.child } m
  change { (if s.good = true then { s.renamed r with world := (m.renamed r).frame, base := (m.renamed r).child }
      else St.setTransformOdometry b' p { s.renamed r with world := (m.renamed r).frame, base := (m.renamed r).child }
        (m.renamed r)) with
      lastOdom := m.pose, lastOdomCov := copyCov6 m.cov, odomTime := m.stamp, odomUpdated := true } = _
  rw [h0]
  rfl

theorem robotOriginWorld_renamed (hb : TfBuffer.Renamed r b b') (s : St) (v : V3) (t : Int) :
    (s.renamed r).robotOriginWorld b' v t = s.robotOriginWorld b v t := by
  unfold St.robotOriginWorld
  rw [show lookupTransformSafe b' (s.renamed r).base (s.renamed r).gpsFrame t =
      lookupTransformSafe b s.base s.gpsFrame t from lookup_renamed hb _ _ _,
    show lookupTransformSafe b' (s.renamed r).world (s.renamed r).base t =
      lookupTransformSafe b s.world s.base t from lookup_renamed hb _ _ _]

theorem prepareGpsOdometry_renamed (hb : TfBuffer.Renamed r b b') (s : St) :
    (s.renamed r).prepareGpsOdometry b' p =
      ((s.prepareGpsOdometry b p).1.renamed r, (s.prepareGpsOdometry b p).2.map (Out.renamed r)) := by
  unfold St.prepareGpsOdometry
  dsimp only
  rw [robotOriginWorld_renamed hb]
  change (if (s.good && s.gpsUpdated && s.odomUpdated) = true then _ else _) = _
  by_cases h : (s.good && s.gpsUpdated && s.odomUpdated) = true
  · simp only [if_pos h]; rfl
  · simp only [if_neg h]; rfl

theorem prepareFilteredGps_renamed (s : St) :
    (s.renamed r).prepareFilteredGps g =
      (s.prepareFilteredGps g).map fun x => (x.1.renamed r, x.2.map (Out.renamed r)) := by
  unfold St.prepareFilteredGps
  change (if (s.good && s.odomUpdated) = true then (s.mapToLL g s.lastOdom.org).map _ else _) = _
  by_cases h : (s.good && s.odomUpdated) = true
  · rw [if_pos h, if_pos h]
    cases s.mapToLL g s.lastOdom.org <;> rfl
  · rw [if_neg h, if_neg h]; rfl

theorem timer_renamed (hb : TfBuffer.Renamed r b b') (hk : KeepsGrid r) (bc ap : Bool) (s : St) :
    (s.renamed r).timer g b' p bc ap = (s.timer g b p bc ap).renamed r := by
  unfold St.timer
  change (if s.good = true then _ else _) = _
  by_cases h : s.good = true
  · rw [if_pos h, if_pos h, prepareGpsOdometry_renamed hb]
    generalize s.prepareGpsOdometry b p = q
    obtain ⟨s1, o1⟩ := q
    dsimp only
    by_cases hp : p.publishGps = true
    · rw [if_pos hp, if_pos hp, prepareFilteredGps_renamed]
      cases s1.prepareFilteredGps g with
      | none => rfl
      | some x => simp only [Option.map_some, Res.renamed, List.map_append]
    · rw [if_neg hp, if_neg hp]; rfl
  · rw [if_neg h, if_neg h, computeTransform_renamed hb]
    generalize s.computeTransform g b p = s1
    dsimp only
    have h2 : (if ((s1.renamed r).good && !p.odomYaw && !(s1.renamed r).manual) = true then { s1.renamed r with imuSub := false }
        else s1.renamed r) =
        (if (s1.good && !p.odomYaw && !s1.manual) = true then { s1 with imuSub := false } else s1).renamed r := by
      change (if (s1.good && !p.odomYaw && !s1.manual) = true then _ else _) = _
      by_cases h : (s1.good && !p.odomYaw && !s1.manual) = true
      · rw [if_pos h, if_pos h]; rfl
      · rw [if_neg h, if_neg h]
    rw [h2]
    generalize (if (s1.good && !p.odomYaw && !s1.manual) = true then { s1 with imuSub := false } else s1) = s2
    have hf : r.nm (if p.useLocal = true then "local_enu" else "utm") = (if p.useLocal = true then "local_enu" else "utm") := by
      cases p.useLocal
      · exact hk.1
      · exact hk.2
    generalize (if p.useLocal = true then "local_enu" else "utm") = frame at hf
    unfold Res.renamed
    dsimp only
    refine congrArg₂ Res.mk ?_ rfl
    change (if (s2.good && bc) = true then _ else _) = _
    by_cases h : (s2.good && bc) = true
    · rw [if_pos h, if_pos h]
      cases ap
      · simp only [Bool.false_eq_true, if_false, List.map_cons, List.map_nil, Out.renamed, hf]; rfl
      · simp only [if_true, List.map_cons, List.map_nil, Out.renamed, hf]; rfl
    · rw [if_neg h, if_neg h]; rfl

theorem step_renamed (hk : KeepsGrid r) (bc ap : Bool) (s : St) {e e' : Ev} (h : Ev.Renamed r e e') :
    step g p bc ap (s.renamed r) e' = (step g p bc ap s e).renamed r := by
  cases h with
  | fix m => exact congrArg (Res.mk []) (fix_renamed s m)
  | imu b b' m hb =>
    refine congrArg (Res.mk []) ?_
    change some (if s.imuSub = true then _ else _) = some (St.renamed r _)
    by_cases h : s.imuSub = true
    · rw [if_pos h, if_pos h, imu_renamed hb]
    · rw [if_neg h, if_neg h]
  | odom b b' m hb => exact congrArg (fun x => Res.mk [] (some x)) (odom_renamed hb s m)
  | timer b b' hb => exact timer_renamed hb hk bc ap s
  | datum d => rfl
  | toLL v =>
    have h1 : (s.renamed r).toLL g v = s.toLL g v := rfl
    have h2 : (s.toLL g v).toList.map (Out.renamed r) = (s.toLL g v).toList := by
      unfold St.toLL
      cases s.good
      · rfl
      · cases s.mapToLL g v <;> rfl
    simp only [step, Res.renamed, h1, h2, Option.map_map]
    rfl
  | fromLL lat lon alt =>
    have h1 : (s.renamed r).fromLL g p lat lon alt = s.fromLL g p lat lon alt := rfl
    have h2 : ∀ o ∈ s.fromLL g p lat lon alt, Out.renamed r o = o := by
      intro o ho
      unfold St.fromLL at ho
      obtain ⟨v, -, hv⟩ := Option.map_eq_some_iff.1 ho
      rw [← hv]
      cases s.good <;> rfl
    have h3 : (s.fromLL g p lat lon alt).toList.map (Out.renamed r) = (s.fromLL g p lat lon alt).toList := by
      cases hf : s.fromLL g p lat lon alt with
      | none => rfl
      | some o => exact congrArg (fun x => [x]) (h2 o hf)
    simp only [step, Res.renamed, h1, h3, Option.map_map]
    rfl
  | setZone z => cases z <;> rfl

/-- **C145** for `navsat_transform`: for all parameters, every state and every run, with the frames renamed in the state, the
messages and the transforms the node sends the same, with the frames renamed, if the frame of the projection keeps its
name. -/
theorem C145_navsat (g : Geo) (p : Par) (bc ap : Bool) (r : Renaming) (hk : KeepsGrid r) {es es' : List Ev}
    (h : List.Forall₂ (Ev.Renamed r) es es') (s : St) :
    run g p bc ap (s.renamed r) es' = (run g p bc ap s es).renamed r := by
  induction h generalizing s with
  | nil => rfl
  | cons he _ ih =>
    simp only [run]
    rw [step_renamed hk bc ap s he]
    generalize step g p bc ap s _ = q
    obtain ⟨o, st⟩ := q
    cases st with
    | none => rfl
    | some s1 =>
      simp only [Res.renamed, Option.map_some, ih]
      simp only [List.map_append]

/-- A broadcast transform. -/
def Out.isBroadcast : Out → Bool
  | .broadcast .. => true
  | _ => false

/-- The name of the frame of the projection is the same for every robot: whatever the renaming, it is that of the program. -/
theorem C145_grid_name (g : Geo) (p : Par) (bc ap : Bool) (s : St) (b : TfBuffer) (t : Tf) (parent child : String)
    (h : .broadcast t parent child ∈ (s.timer g b p bc ap).outs) :
    (if ap then parent else child) = if p.useLocal then "local_enu" else "utm" := by
  unfold St.timer at h
  by_cases hg : s.good = true
  · rw [if_pos hg] at h
    exfalso
    have h1 : ∀ x ∈ (s.prepareGpsOdometry b p).2, Out.isBroadcast x = false := by
      intro x hx
      unfold St.prepareGpsOdometry at hx
      by_cases hq : (s.good && s.gpsUpdated && s.odomUpdated) = true
      · rw [if_pos hq] at hx
        rw [List.mem_singleton.1 hx]; rfl
      · rw [if_neg hq] at hx; cases hx
    have h2 : ∀ (u : St) q, u.prepareFilteredGps g = some q → ∀ x ∈ q.2, Out.isBroadcast x = false := by
      intro u q hq x hx
      unfold St.prepareFilteredGps at hq
      by_cases hc : (u.good && u.odomUpdated) = true
      · rw [if_pos hc] at hq
        obtain ⟨ll, -, e⟩ := Option.map_eq_some_iff.1 hq
        rw [← e] at hx
        rw [List.mem_singleton.1 hx]; rfl
      · rw [if_neg hc] at hq
        injection hq with hq
        rw [← hq] at hx; cases hx
    generalize s.prepareGpsOdometry b p = w at h h1
    obtain ⟨s1, o1⟩ := w
    dsimp only at h h1
    by_cases hp : p.publishGps = true
    · rw [if_pos hp] at h
      cases hf : s1.prepareFilteredGps g with
      | none => rw [hf] at h; exact absurd (h1 _ h) (by simp [Out.isBroadcast])
      | some q =>
        rw [hf] at h
        rcases List.mem_append.1 h with h | h
        · exact absurd (h1 _ h) (by simp [Out.isBroadcast])
        · exact absurd (h2 s1 q hf _ h) (by simp [Out.isBroadcast])
    · rw [if_neg hp] at h
      exact absurd (h1 _ h) (by simp [Out.isBroadcast])
  · rw [if_neg hg] at h
    dsimp only at h
    generalize (if ((s.computeTransform g b p).good && !p.odomYaw && !(s.computeTransform g b p).manual) = true then _ else _ : St) = s2 at h
    by_cases hc : (s2.good && bc) = true
    · rw [if_pos hc] at h
      have h := List.mem_singleton.1 h
      injection h with _ h1 h2
      cases ap
      · simpa using h2
      · simpa using h1
    · rw [if_neg hc] at h; cases h

/-- The name of a robot in front of all frames but those of the projection. -/
def robotNamesGrid (robot : String) : Renaming where
  nm := fun s => if s ∈ ["", "utm", "local_enu"] then s else robot ++ "/" ++ s
  inj := by
    have key : ∀ a, robot ++ "/" ++ a ∉ ["", "utm", "local_enu"] := by
      intro a h
      have hs : '/' ∈ (robot ++ "/" ++ a).toList := by
        simp only [String.toList_append, List.mem_append]
        exact Or.inl (Or.inr (by decide))
      have : ∀ x ∈ ["", "utm", "local_enu"], '/' ∉ x.toList := by decide
      exact this _ h hs
    intro a b h
    by_cases ha : a ∈ ["", "utm", "local_enu"] <;> by_cases hb : b ∈ ["", "utm", "local_enu"]
    · rwa [if_pos ha, if_pos hb] at h
    · rw [if_pos ha, if_neg hb] at h
      exact absurd (h ▸ ha) (key b)
    · rw [if_neg ha, if_pos hb] at h
      exact absurd (h ▸ hb) (key a)
    · rw [if_neg ha, if_neg hb] at h
      have := congrArg String.toList h
      simp only [String.toList_append, List.append_cancel_left_eq] at this
      exact String.toList_inj.1 this
  empty := rfl

example : KeepsGrid (robotNamesGrid "robot1") ∧ (robotNamesGrid "robot1").nm "base_link" = "robot1/base_link" :=
  ⟨⟨rfl, rfl⟩, by decide⟩

/-- Everything that may happen can be renamed. -/
theorem Ev.exists_renamed (r : Renaming) (e : Ev) : ∃ e', Ev.Renamed r e e' := by
  cases e with
  | fix m => exact ⟨_, .fix m⟩
  | imu b m => exact (TfBuffer.exists_renamed r b).elim fun b' h => ⟨_, .imu b b' m h⟩
  | odom b m => exact (TfBuffer.exists_renamed r b).elim fun b' h => ⟨_, .odom b b' m h⟩
  | timer b => exact (TfBuffer.exists_renamed r b).elim fun b' h => ⟨_, .timer b b' h⟩
  | datum d => exact ⟨_, .datum d⟩
  | toLL v => exact ⟨_, .toLL v⟩
  | fromLL lat lon alt => exact ⟨_, .fromLL lat lon alt⟩
  | setZone z => exact ⟨_, .setZone z⟩

end RL.Nav
