import Verif.Model.Navsat
import Verif.Spec.RigidBody
/-! # What it means for `navsat_transform` to be told the truth, and to tell it -/

namespace RL.Nav
open Matrix Body

/-- A robot that moves as `motion` says, with an antenna at `off`, in a world that is the map projection, shifted and turned
about the vertical.  At the time `t0` it has not yet left the pose in which `navsat_transform` starts. -/
structure Scene where
  motion : Int → Kin
  /-- from the projection to the world -/
  toWorld : Tf
  off : V3
  /-- latitude, longitude and altitude of the antenna -/
  place : Int → ℝ × ℝ × ℝ
  t0 : Int
  world : String
  base : String
  antenna : String

/-- The projection of where the antenna is. -/
def Scene.Sees (w : Scene) (g : Geo) (t : Int) (u : Utm) : Prop := g.forward (w.place t).1 (w.place t).2.1 (-1) = some u

/-- The places that can be projected belong to the motion. -/
structure Scene.Real (w : Scene) (g : Geo) : Prop where
  turned : ∃ a, w.toWorld.rot = rotZ a
  antenna : ∀ t u, w.Sees g t u →
    w.toWorld.rot.mulVec ![u.x, u.y, (w.place t).2.2] + w.toWorld.org = (rot (w.motion t).eul).mulVec w.off + (w.motion t).pos

/-- At `t` the robot is where it was at `t0`. -/
def Scene.Still (w : Scene) (t : Int) : Prop :=
  (w.motion t).pos = (w.motion w.t0).pos ∧ (w.motion t).eul = (w.motion w.t0).eul ∧ w.place t = w.place w.t0

/-- Roll, pitch and yaw which, once the declination, the offset and the convergence are added to the yaw, are those of the robot
at the start in the projection. -/
def Scene.Bearing (w : Scene) (g : Geo) (p : Par) (e : Vec3) : Prop :=
  0 < Real.cos (e 1) ∧ ∃ u, w.Sees g w.t0 u ∧
    rot ![e 0, e 1, e 2 + p.declination + p.yawOffset + u.conv * (Real.pi / 180)] = w.toWorld.rotᵀ * rot (w.motion w.t0).eul

/-- A datum that says where the origin of the world is and which way its first axis points, in the zone of the start. -/
def Scene.Marks (w : Scene) (g : Geo) (p : Par) (d : GeoPose) : Prop :=
  ∃ u e, g.forward d.lat d.lon (-1) = some u ∧ w.toWorld.rot.mulVec ![u.x, u.y, d.alt] + w.toWorld.org = 0 ∧
    d.ori.mat = rot e ∧ 0 < Real.cos (e 1) ∧
    w.toWorld.rot = (rotZ (e 2 + p.declination + p.yawOffset + u.conv * (Real.pi / 180)))ᵀ ∧
    ∀ u0, w.Sees g w.t0 u0 → u.zone = u0.zone ∧ u.north = u0.north

/-- What is known about the robot in the world, when asked for the time of `stamp`, is how it was turned then, as far as the
antenna shows it.  The program asks for a wrong time (`poseLookupTime`), and then for the latest. -/
def Scene.KnowsTurn (w : Scene) (buf : TfBuffer) (stamp : Int) : Prop :=
  buf w.world w.base 0 ≠ none ∧ ∀ t, buf w.world w.base (poseLookupTime stamp) = some t ∨ buf w.world w.base 0 = some t →
    t.rot.mulVec w.off = (rot (w.motion stamp).eul).mulVec w.off

/-- What is known about the antenna on the robot. -/
def Scene.KnowsAntenna (w : Scene) (buf : TfBuffer) : Prop :=
  buf w.base w.antenna 0 ≠ none ∧ ∀ time t, buf w.base w.antenna time = some t → t.org = w.off

/-- A message that tells the truth.  Until the transform is known the robot stays where it is, unless a datum has been given. -/
def Scene.Honest (w : Scene) (g : Geo) (p : Par) (s : St) : Ev → Prop
  | .fix m => m.frame = w.antenna ∧ ∀ x, m.fix = true → m.pos = some x → x = w.place m.stamp ∧ (s.good = false → s.manual = false → w.Still m.stamp)
  | .imu buf m => s.good = false → s.manual = false → (∀ a b s t, buf a b s = some t → IsRot t.rot) ∧
      (∀ a s t, buf a a s = some t → t = Tf.id) ∧ m.frame = w.base ∧ ∃ e, m.ori.mat = rot e ∧ w.Bearing g p e
  | .odom buf m => (∀ a b s t, buf a b s = some t → IsRot t.rot) ∧ (∀ a s t, buf a a s = some t → t = Tf.id) ∧
      m.frame = w.world ∧ m.child = w.base ∧ m.pos = (w.motion m.stamp).pos ∧ m.ori.mat = rot (w.motion m.stamp).eul ∧
      (s.good = false → s.manual = false → w.Still m.stamp)
  | .timer buf => (∀ a b s t, buf a b s = some t → IsRot t.rot) ∧ (∀ a s t, buf a a s = some t → t = Tf.id) ∧
      w.KnowsAntenna buf ∧
      (s.good = true → s.gpsUpdated = true → w.KnowsTurn buf s.gpsTime)
  | .toLL _ => True
  | .fromLL _ _ _ => True
  | .datum d => w.Marks g p d
  | .setZone _ => False

/-- A message that is the truth.  `odometry/gps` says where the robot is; `gps/filtered` says where on earth that is: the
latitude, longitude and altitude of any place in the zone of the start that the projection and the map take to the
position of the robot; the transform, with altitudes, is the one between the projection and the world. -/
def Scene.Tells (w : Scene) (g : Geo) (p : Par) (asParent : Bool) : Out → Prop
  | .gpsOdom pos _ stamp frame => frame = w.world ∧ pos = (w.motion stamp).pos
  | .filtered lat lon alt _ stamp frame => frame = w.base ∧ ∀ lat' lon' alt' u u0, |lat'| < 90 → |lon'| < 180 →
      g.forward lat' lon' (-1) = some u → w.Sees g w.t0 u0 → u.zone = u0.zone → u.north = u0.north →
      w.toWorld.rot.mulVec ![u.x, u.y, alt'] + w.toWorld.org = (w.motion stamp).pos → lat = lat' ∧ lon = lon' ∧ alt = alt'
  | .broadcast t parent child => p.zeroAlt = false →
      if asParent then t = w.toWorld.inv ∧ parent = "utm" ∧ child = w.world
      else t = w.toWorld ∧ parent = w.world ∧ child = "utm"
  | _ => True

end RL.Nav
