import Verif.Spec.NavsatDemo
/-!
# Properties C50, C54, C55, C74: geographic and map coordinates
-/

namespace RL.Nav
open Matrix

/-- **C50**, one direction, with a UTM projection: in the hemisphere of the datum, converting a geographic point to the map
and back returns it; the height is lost when altitudes are set to zero. -/
theorem C50_from_to_partial {g : Geo} (hg : g.Lawful) {p : Par} (hu : p.useLocal = false) (bc ap w : Bool) {s0 : St}
    (hi : s0.Initial p w) (es : List Ev) {s : St} (hr : (run g p bc ap s0 es).st = some s) {lat lon alt : ℝ} {v : V3}
    (h1 : |lat| < 90) (h2 : |lon| < 180) (hf : s.fromLL g p lat lon alt = some (.map (some v))) (hn : s.north = decide (0 ≤ lat)) :
    ∃ alt', s.toLL g v = some (.ll (some (lat, lon, alt'))) ∧ (p.zeroAlt = false → alt' = alt) := by
  have hk := run_known g p bc ap hi es s hr
  have hz := run_zone hg p bc ap hi es s hr
  obtain ⟨hgood, ⟨hl, -⟩ | ⟨-, u, hfw, hv⟩⟩ := fromLL_some hf
  · rw [hu] at hl
    cases hl
  obtain ⟨e1, e2, e3, e4, -, hleg, -, -⟩ := forward_some hfw
  rw [if_neg (by have := hz.1; omega)] at e1
  have hb : s.cwInv.apply v 0 = u.x ∧ s.cwInv.apply v 1 = u.y ∧ (p.zeroAlt = false → s.cwInv.apply v 2 = alt) := by
    have hl := hk.inv_level hgood v (s.cw.apply ![u.x, u.y, alt]) (by rw [hv]; rfl) (by rw [hv]; rfl)
    rw [hk.back hgood] at hl
    refine ⟨hl.1, hl.2.1, fun h => ?_⟩
    have h3 := hl.2.2
    have : v 2 = s.cw.apply ![u.x, u.y, alt] 2 := by
      rw [hv]
      simp [St.cartesianToMap, h]
    rw [this] at h3
    simp only [cons_val] at h3
    linarith
  refine ⟨s.cwInv.apply v 2, ?_, hb.2.2⟩
  unfold St.toLL
  rw [if_pos hgood]
  unfold St.mapToLL Geo.reverse
  simp only
  have hleg' : Legal s.zone s.north (s.cwInv.apply v 0) (s.cwInv.apply v 1) := by
    rw [hb.1, hb.2.1, hn, ← e2, ← e1]
    exact hleg
  rw [if_pos hleg', hb.1, hb.2.1, hn, ← e2, ← e1]
  have hx : (u.x - (falseOrigin u.zone u.north).1, u.y - (falseOrigin u.zone u.north).2) = g.proj u.zone lat lon := by
    rw [e3, e4]
    simp
  rw [hx, hg.unproj_proj _ lat lon u h1 h2 hfw]
  rfl

/-- **C50**, the other direction. -/
theorem C50_to_from_partial {g : Geo} (hg : g.Lawful) {p : Par} (hu : p.useLocal = false) (bc ap w : Bool) {s0 : St}
    (hi : s0.Initial p w) (es : List Ev) {s : St} (hr : (run g p bc ap s0 es).st = some s) {lat lon alt : ℝ} {v : V3}
    (hf : s.toLL g v = some (.ll (some (lat, lon, alt)))) (hn : s.north = decide (0 ≤ lat)) :
    s.fromLL g p lat lon alt = some (.map (some ![v 0, v 1, if p.zeroAlt then 0 else v 2])) := by
  have hk := run_known g p bc ap hi es s hr
  have hz := run_zone hg p bc ap hi es s hr
  obtain ⟨hgood, hrev, halt⟩ := toLL_some hf
  unfold Geo.reverse at hrev
  simp only at hrev
  split at hrev
  · rename_i hleg
    simp only [Option.some.injEq] at hrev
    obtain ⟨lat', lon', hun, h90, hp, h0⟩ := hg.proj_unproj _ _ _ _ hz.1 hz.2 hleg
    rw [hrev] at hun
    simp only [Prod.mk.injEq] at hun
    rw [← hun.1, ← hun.2] at hp
    rw [← hun.1] at h0 h90
    have hfw := forward_intro g lat lon s.zone (by have := hz.1; omega) h90 (fun h => (h0 h).1)
      (by rw [hp, ← hn]; simpa using hleg)
    rw [hp, ← hn] at hfw
    simp only [sub_add_cancel] at hfw
    unfold St.fromLL
    simp only [hu, Bool.false_eq_true, if_false, hfw, Option.map_some, hgood, if_true]
    have hv : (![s.cwInv.apply v 0, s.cwInv.apply v 1, alt] : V3) = s.cwInv.apply v := by
      ext i
      fin_cases i
      · rfl
      · rfl
      · exact halt.symm
    rw [hv]
    unfold St.cartesianToMap
    rw [hk.forth hgood]
  · cases hrev

/-- **C50**, refuted across the equator: the answer of fromLL for a point in the other hemisphere is never converted back to
that point. -/
theorem C50_other_hemisphere {g : Geo} (hg : g.Lawful) {p : Par} (hu : p.useLocal = false) (bc ap w : Bool) {s0 : St}
    (hi : s0.Initial p w) (es : List Ev) {s : St} (hr : (run g p bc ap s0 es).st = some s) {lat lon alt : ℝ} {v : V3}
    (hf : s.fromLL g p lat lon alt = some (.map (some v))) (hn : s.north ≠ decide (0 ≤ lat)) (alt' : ℝ) :
    s.toLL g v ≠ some (.ll (some (lat, lon, alt'))) := by
  intro ht
  have hk := run_known g p bc ap hi es s hr
  have hz := run_zone hg p bc ap hi es s hr
  obtain ⟨hgood, ⟨hl, -⟩ | ⟨-, u, hfw, hv⟩⟩ := fromLL_some hf
  · rw [hu] at hl
    cases hl
  obtain ⟨e1, e2, e3, e4, -, -, -, -⟩ := forward_some hfw
  rw [if_neg (by have := hz.1; omega)] at e1
  have hl := hk.inv_level hgood v (s.cw.apply ![u.x, u.y, alt]) (by rw [hv]; rfl) (by rw [hv]; rfl)
  rw [hk.back hgood] at hl
  have hx : s.cwInv.apply v 0 = u.x := hl.1
  have hy : s.cwInv.apply v 1 = u.y := hl.2.1
  obtain ⟨-, hrev, -⟩ := toLL_some ht
  rw [hx, hy] at hrev
  unfold Geo.reverse at hrev
  simp only at hrev
  split at hrev
  · rename_i hleg
    simp only [Option.some.injEq] at hrev
    obtain ⟨lat', lon', hun, h90, hp, h0⟩ := hg.proj_unproj _ _ _ _ hz.1 hz.2 hleg
    rw [hrev] at hun
    simp only [Prod.mk.injEq] at hun
    rw [← hun.1, ← hun.2] at hp
    rw [← hun.1] at h0
    by_cases hz0 : s.zone = 0
    · have := (h0 hz0).2
      apply hn
      cases hsn : s.north with
      | true => rw [hsn] at this; simpa using this
      | false => rw [hsn] at this; simpa using this
    · rw [e1, hp] at e4
      have : (falseOrigin s.zone s.north).2 = (falseOrigin s.zone u.north).2 := by
        simp only at e4
        linarith
      unfold falseOrigin at this
      rw [if_neg hz0, if_neg hz0] at this
      rw [← e2] at hn
      cases hsn : s.north <;> cases hun : u.north <;> rw [hsn, hun] at this hn
      · exact hn rfl
      · simp at this
      · simp at this
      · exact hn rfl
  · cases hrev

/-- **C50**, refuted in local mode: the point of the map that fromLL gives for a place less than 1200 km east of the datum
cannot be converted back; the request ends the node. -/
theorem C50_local {g : Geo} {p : Par} (hu : p.useLocal = true) (bc ap w : Bool) {s0 : St}
    (hi : s0.Initial p w) (es : List Ev) (he : ∀ e ∈ es, ∀ z, e ≠ .setZone z) {s : St} (hr : (run g p bc ap s0 es).st = some s)
    (hgood : s.good = true) (lat lon alt : ℝ) (hnear : g.enu s.enu0.1 s.enu0.2 lat lon alt 0 < 1200000) :
    ∃ v, s.fromLL g p lat lon alt = some (.map (some v)) ∧ s.toLL g v = none := by
  have hk := run_known g p bc ap hi es s hr
  obtain ⟨hz, hn⟩ := run_polar g p hu bc ap hi es he s hr
  refine ⟨s.cartesianToMap p ![g.enu s.enu0.1 s.enu0.2 lat lon alt 0, g.enu s.enu0.1 s.enu0.2 lat lon alt 1, alt], ?_, ?_⟩
  · unfold St.fromLL
    simp only [hu, if_true, Option.map_some, hgood]
  · have hl := hk.inv_level hgood
      (s.cartesianToMap p ![g.enu s.enu0.1 s.enu0.2 lat lon alt 0, g.enu s.enu0.1 s.enu0.2 lat lon alt 1, alt])
      (s.cw.apply ![g.enu s.enu0.1 s.enu0.2 lat lon alt 0, g.enu s.enu0.1 s.enu0.2 lat lon alt 1, alt]) rfl rfl
    rw [hk.back hgood] at hl
    unfold St.toLL
    rw [if_pos hgood]
    unfold St.mapToLL Geo.reverse
    simp only [hz, hn]
    rw [if_neg]
    · rfl
    · unfold Legal
      rw [if_pos hz, if_pos hn]
      rintro ⟨⟨h, -⟩, -⟩
      rw [hl.1] at h
      exact absurd hnear (not_lt.2 h)

/-- Published position after a fix when the antenna is at the origin of the robot. -/
theorem timer_position {g : Geo} (buf : TfBuffer) (p : Par) (bc ap : Bool) (s : St) (hgood : s.good = true)
    (hup : s.gpsUpdated = true) (hod : s.odomUpdated = true) {off rob : Tf}
    (hoff : lookupTransformSafe buf s.base s.gpsFrame (poseLookupTime s.gpsTime) = some off) (h0 : off.org = 0)
    (hrob : lookupTransformSafe buf s.world s.base (poseLookupTime s.gpsTime) = some rob) :
    ∃ cov rest, (s.timer g buf p bc ap).outs = .gpsOdom (s.cartesianToMap p s.lastCart) cov s.gpsTime s.world :: rest := by
  have hpos : s.robotOriginWorld buf (s.cartesianToMap p s.lastCart) (poseLookupTime s.gpsTime) = s.cartesianToMap p s.lastCart := by
    unfold St.robotOriginWorld
    rw [hoff]
    simp only [hrob, h0]
    simp [Tf.apply, Tf.inv]
  have hpre : ∃ s1 cov, s.prepareGpsOdometry buf p = (s1, [.gpsOdom (s.cartesianToMap p s.lastCart) cov s.gpsTime s.world]) := by
    unfold St.prepareGpsOdometry
    simp only [hgood, hup, hod, Bool.and_self, if_true, hpos]
    have hv : (![s.cartesianToMap p s.lastCart 0, s.cartesianToMap p s.lastCart 1,
        if p.zeroAlt = true then 0 else s.cartesianToMap p s.lastCart 2] : V3) = s.cartesianToMap p s.lastCart := by
      ext i
      fin_cases i
      · rfl
      · rfl
      · simp only [St.cartesianToMap]
        by_cases hz : p.zeroAlt = true <;> simp [hz]
    rw [hv]
    exact ⟨_, _, rfl⟩
  obtain ⟨s1, cov, hpre⟩ := hpre
  unfold St.timer
  simp only [hgood, if_true, hpre]
  split
  · split
    · exact ⟨cov, _, rfl⟩
    · exact ⟨cov, [], rfl⟩
  · exact ⟨cov, [], rfl⟩

/-- What a usable fix does once the transform is known. -/
theorem fix_good {g : Geo} {p : Par} {s s1 : St} (hgood : s.good = true) {m : FixMsg} {lat lon alt : ℝ} (hm : m.fix = true)
    (hpos : m.pos = some (lat, lon, alt)) (hs : s.fix g p m = some s1) :
    ∃ u, g.forward lat lon (-1) = some u ∧ s1 = { s with
      gpsFrame := m.frame
      lastCart := ![u.x, u.y, alt]
      lastCartCov := .of fun i j => if h : i.val < 3 ∧ j.val < 3 then m.cov ⟨3 * i.val + j.val, by omega⟩ else 0
      gpsTime := m.stamp
      gpsUpdated := true } := by
  unfold St.fix at hs
  simp only [hm, hpos, hgood, Bool.not_true, Bool.false_and, Bool.false_eq_true, if_false] at hs
  rw [Option.map_eq_some_iff] at hs
  obtain ⟨u, hu, hs⟩ := hs
  refine ⟨u, hu, ?_⟩
  rw [← hs]
  simp only [hgood]

/-- **C54** with a UTM projection and a point in the zone in use: a fix there and fromLL of the point give the same
position. -/
theorem C54_same_zone_partial {g : Geo} (hg : g.Lawful) {p : Par} (hu : p.useLocal = false) (bc ap w : Bool) {s0 : St}
    (hi : s0.Initial p w) (es : List Ev) {s : St} (hr : (run g p bc ap s0 es).st = some s) {m : FixMsg} {lat lon alt : ℝ} {v : V3}
    (hf : s.fromLL g p lat lon alt = some (.map (some v))) (hstd : g.standard lat lon = s.zone)
    (hm : m.fix = true) (hpos : m.pos = some (lat, lon, alt)) {s1 : St} (hs : s.fix g p m = some s1)
    (hod : s.odomUpdated = true) {buf : TfBuffer} {off rob : Tf}
    (hoff : lookupTransformSafe buf s.base m.frame (poseLookupTime m.stamp) = some off) (h0 : off.org = 0)
    (hrob : lookupTransformSafe buf s.world s.base (poseLookupTime m.stamp) = some rob) :
    ∃ cov rest, (step g p bc ap s1 (.timer buf)).outs = .gpsOdom v cov m.stamp s.world :: rest := by
  have hz := run_zone hg p bc ap hi es s hr
  obtain ⟨hgood, ⟨hl, -⟩ | ⟨-, u, hfw, hv⟩⟩ := fromLL_some hf
  · rw [hu] at hl
    cases hl
  obtain ⟨u', hu', rfl⟩ := fix_good hgood hm hpos hs
  have hsame : u' = u := by
    rw [forward_std g lat lon s.zone hstd (by have := hz.1; omega), hfw] at hu'
    exact (Option.some.inj hu').symm
  subst hsame
  rw [hv]
  exact timer_position buf p bc ap _ hgood rfl hod hoff h0 hrob

/-- **C54**, refuted in local mode: a fix at the datum is published as far from the map position of the datum as its UTM
coordinates are from zero. -/
theorem C54_local {g : Geo} (hg : g.Lawful) {p : Par} (hu : p.useLocal = true) (bc ap w : Bool) {s0 : St}
    (hi : s0.Initial p w) (es : List Ev) {s : St} (hr : (run g p bc ap s0 es).st = some s) (hgood : s.good = true)
    {m : FixMsg} {alt : ℝ} (hm : m.fix = true) (hpos : m.pos = some (s.enu0.1, s.enu0.2, alt)) {s1 : St} (hs : s.fix g p m = some s1)
    (hod : s.odomUpdated = true) {buf : TfBuffer} {off rob : Tf}
    (hoff : lookupTransformSafe buf s.base m.frame (poseLookupTime m.stamp) = some off) (h0 : off.org = 0)
    (hrob : lookupTransformSafe buf s.world s.base (poseLookupTime m.stamp) = some rob) :
    ∃ v v' cov rest u, s.fromLL g p s.enu0.1 s.enu0.2 alt = some (.map (some v)) ∧
      (step g p bc ap s1 (.timer buf)).outs = .gpsOdom v' cov m.stamp s.world :: rest ∧
      g.forward s.enu0.1 s.enu0.2 (-1) = some u ∧ (v' 0 - v 0) ^ 2 + (v' 1 - v 1) ^ 2 = u.x ^ 2 + u.y ^ 2 := by
  have hk := run_known g p bc ap hi es s hr
  obtain ⟨u, hu', rfl⟩ := fix_good hgood hm hpos hs
  obtain ⟨cov, rest, ho⟩ := timer_position (g := g) buf p bc ap { s with
      gpsFrame := m.frame
      lastCart := ![u.x, u.y, alt]
      lastCartCov := .of fun i j => if h : i.val < 3 ∧ j.val < 3 then m.cov ⟨3 * i.val + j.val, by omega⟩ else 0
      gpsTime := m.stamp
      gpsUpdated := true } hgood rfl hod hoff h0 hrob
  have hv : s.fromLL g p s.enu0.1 s.enu0.2 alt = some (.map (some (s.cartesianToMap p ![0, 0, alt]))) := by
    unfold St.fromLL
    simp only [hu, if_true, hg.enu_origin, Option.map_some, hgood]
    rfl
  refine ⟨_, _, cov, rest, u, hv, ho, hu', ?_⟩
  have := hk.dist2 hgood p ![u.x, u.y, alt] ![0, 0, alt]
  simp only [dist2, cons_val_zero, cons_val_one, sub_zero] at this
  exact this

/-- **C54**, refuted for points of another zone: position of a fix and answer of fromLL are as far apart as the coordinates of
the point in the two zones. -/
theorem C54_other_zone {g : Geo} {p : Par} (hu : p.useLocal = false) (bc ap w : Bool) {s0 : St}
    (hi : s0.Initial p w) (es : List Ev) {s : St} (hr : (run g p bc ap s0 es).st = some s) {m : FixMsg} {lat lon alt : ℝ} {v : V3}
    (hf : s.fromLL g p lat lon alt = some (.map (some v)))
    (hm : m.fix = true) (hpos : m.pos = some (lat, lon, alt)) {s1 : St} (hs : s.fix g p m = some s1)
    (hod : s.odomUpdated = true) {buf : TfBuffer} {off rob : Tf}
    (hoff : lookupTransformSafe buf s.base m.frame (poseLookupTime m.stamp) = some off) (h0 : off.org = 0)
    (hrob : lookupTransformSafe buf s.world s.base (poseLookupTime m.stamp) = some rob) :
    ∃ v' cov rest u1 u2, (step g p bc ap s1 (.timer buf)).outs = .gpsOdom v' cov m.stamp s.world :: rest ∧
      g.forward lat lon (-1) = some u1 ∧ g.forward lat lon s.zone = some u2 ∧
      (v' 0 - v 0) ^ 2 + (v' 1 - v 1) ^ 2 = (u1.x - u2.x) ^ 2 + (u1.y - u2.y) ^ 2 := by
  have hk := run_known g p bc ap hi es s hr
  obtain ⟨hgood, ⟨hl, -⟩ | ⟨-, u, hfw, hv⟩⟩ := fromLL_some hf
  · rw [hu] at hl
    cases hl
  obtain ⟨u', hu', rfl⟩ := fix_good hgood hm hpos hs
  obtain ⟨cov, rest, ho⟩ := timer_position (g := g) buf p bc ap { s with
      gpsFrame := m.frame
      lastCart := ![u'.x, u'.y, alt]
      lastCartCov := .of fun i j => if h : i.val < 3 ∧ j.val < 3 then m.cov ⟨3 * i.val + j.val, by omega⟩ else 0
      gpsTime := m.stamp
      gpsUpdated := true } hgood rfl hod hoff h0 hrob
  refine ⟨_, cov, rest, u', u, ho, hu', hfw, ?_⟩
  have := hk.dist2 hgood p ![u'.x, u'.y, alt] ![u.x, u.y, alt]
  rw [← hv] at this
  simp only [dist2, cons_val_zero, cons_val_one] at this
  exact this

/-- **C55**: the central meridian is within three degrees. -/
theorem C55_central_meridian (lon : ℝ) : |lon - centralMeridian lon| ≤ 3 := by
  unfold centralMeridian
  rw [abs_le]
  by_cases h : 0 ≤ lon
  · rw [if_pos h]
    have f1 := Int.floor_le lon
    have f2 := Int.lt_floor_add_one lon
    have f0 : 0 ≤ ⌊lon⌋ := Int.floor_nonneg.2 h
    generalize ⌊lon⌋ = k at f0 f1 f2
    have hm : 0 ≤ k.tmod 6 ∧ k.tmod 6 ≤ 5 := by
      constructor
      · exact Int.tmod_nonneg 6 f0
      · have := Int.tmod_lt_of_pos k (by norm_num : (0 : Int) < 6)
        omega
    obtain ⟨m0, m5⟩ := hm
    have m0' : (0 : ℝ) ≤ ((k.tmod 6 : Int) : ℝ) := by exact_mod_cast m0
    have m5' : ((k.tmod 6 : Int) : ℝ) ≤ 5 := by exact_mod_cast m5
    push_cast
    constructor <;> linarith
  · rw [if_neg h]
    have f1 := Int.le_ceil lon
    have f2 := Int.ceil_lt_add_one lon
    have f0 : ⌈lon⌉ ≤ 0 := Int.ceil_le.2 (by push_cast; linarith)
    generalize ⌈lon⌉ = k at f0 f1 f2
    have hm : -5 ≤ k.tmod 6 ∧ k.tmod 6 ≤ 0 := by
      have e : k.tmod 6 = -((-k).tmod 6) := by rw [Int.neg_tmod]; ring
      have h1 := Int.tmod_nonneg (a := -k) 6 (by omega)
      have h2 := Int.tmod_lt_of_pos (-k) (by norm_num : (0 : Int) < 6)
      omega
    obtain ⟨m0, m5⟩ := hm
    have m0' : (-5 : ℝ) ≤ ((k.tmod 6 : Int) : ℝ) := by exact_mod_cast m0
    have m5' : ((k.tmod 6 : Int) : ℝ) ≤ 0 := by exact_mod_cast m5
    push_cast
    constructor <;> linarith

/-- **C55**: it is the middle of a zone of six degrees that starts at a multiple of six. -/
theorem C55_zone_middle (lon : ℝ) : ∃ k : Int, centralMeridian lon = 6 * k + 3 := by
  unfold centralMeridian
  have e : ∀ n : Int, n - n.tmod 6 = 6 * n.tdiv 6 := fun n => by
    have := Int.mul_tdiv_add_tmod n 6
    omega
  split
  · exact ⟨_, by rw [e]⟩
  · refine ⟨⌈lon⌉.tdiv 6 - 1, ?_⟩
    rw [e]
    ring

/-- **C74** within one zone and hemisphere: positions of fixes on the map are as far apart as on the projection. -/
theorem C74_steps_partial {g : Geo} {p : Par} (bc ap w : Bool) {s0 : St}
    (hi : s0.Initial p w) (es : List Ev) {s : St} (hr : (run g p bc ap s0 es).st = some s) (hgood : s.good = true)
    {m1 m2 : FixMsg} {lat1 lon1 alt1 lat2 lon2 alt2 : ℝ} (hm1 : m1.fix = true) (hm2 : m2.fix = true)
    (hp1 : m1.pos = some (lat1, lon1, alt1)) (hp2 : m2.pos = some (lat2, lon2, alt2)) {s1 s2 : St}
    (hs1 : s.fix g p m1 = some s1) (hs2 : s.fix g p m2 = some s2) (hz : g.standard lat1 lon1 = g.standard lat2 lon2)
    (hh : 0 ≤ lat1 ↔ 0 ≤ lat2) :
    dist2 (s1.cartesianToMap p s1.lastCart) (s2.cartesianToMap p s2.lastCart) =
      ((g.proj (g.standard lat1 lon1) lat1 lon1).1 - (g.proj (g.standard lat1 lon1) lat2 lon2).1) ^ 2 +
      ((g.proj (g.standard lat1 lon1) lat1 lon1).2 - (g.proj (g.standard lat1 lon1) lat2 lon2).2) ^ 2 := by
  have hk := run_known g p bc ap hi es s hr
  obtain ⟨u1, hu1, rfl⟩ := fix_good hgood hm1 hp1 hs1
  obtain ⟨u2, hu2, rfl⟩ := fix_good hgood hm2 hp2 hs2
  obtain ⟨a1, a2, a3, a4, -⟩ := forward_some hu1
  obtain ⟨b1, b2, b3, b4, -⟩ := forward_some hu2
  rw [if_pos rfl] at a1 b1
  rw [← hz] at b1
  have hnn : u2.north = u1.north := by rw [a2, b2]; simp [hh]
  refine (hk.dist2 hgood p ![u1.x, u1.y, alt1] ![u2.x, u2.y, alt2]).trans ?_
  rw [show dist2 ![u1.x, u1.y, alt1] ![u2.x, u2.y, alt2] = (u1.x - u2.x) ^ 2 + (u1.y - u2.y) ^ 2 from rfl, a3, a4, b3, b4, hnn,
    a1, b1]
  ring

/-- **C74**, refuted at the equator: however close two fixes on its two sides are, in a UTM zone their positions on the map
are ten thousand kilometres apart. -/
theorem C74_equator {g : Geo} {p : Par} (bc ap w : Bool) {s0 : St}
    (hi : s0.Initial p w) (es : List Ev) {s : St} (hr : (run g p bc ap s0 es).st = some s) (hgood : s.good = true)
    {m1 m2 : FixMsg} {lat1 lon1 alt1 lat2 lon2 alt2 : ℝ} (hm1 : m1.fix = true) (hm2 : m2.fix = true)
    (hp1 : m1.pos = some (lat1, lon1, alt1)) (hp2 : m2.pos = some (lat2, lon2, alt2)) {s1 s2 : St}
    (hs1 : s.fix g p m1 = some s1) (hs2 : s.fix g p m2 = some s2) (hz : g.standard lat1 lon1 = g.standard lat2 lon2)
    (h0 : g.standard lat1 lon1 ≠ 0) (hn1 : 0 ≤ lat1) (hn2 : lat2 < 0) (d : ℝ)
    (hd : |(g.proj (g.standard lat1 lon1) lat1 lon1).2 - (g.proj (g.standard lat1 lon1) lat2 lon2).2| ≤ d) (hd' : d ≤ 10000000) :
    (10000000 - d) ^ 2 ≤ dist2 (s1.cartesianToMap p s1.lastCart) (s2.cartesianToMap p s2.lastCart) := by
  have hk := run_known g p bc ap hi es s hr
  obtain ⟨u1, hu1, rfl⟩ := fix_good hgood hm1 hp1 hs1
  obtain ⟨u2, hu2, rfl⟩ := fix_good hgood hm2 hp2 hs2
  obtain ⟨a1, a2, a3, a4, -⟩ := forward_some hu1
  obtain ⟨b1, b2, b3, b4, -⟩ := forward_some hu2
  rw [if_pos rfl] at a1 b1
  rw [← hz] at b1
  have hN1 : u1.north = true := by rw [a2]; simpa using hn1
  have hN2 : u2.north = false := by rw [b2]; simpa using hn2
  refine le_of_le_of_eq ?_ (hk.dist2 hgood p ![u1.x, u1.y, alt1] ![u2.x, u2.y, alt2]).symm
  rw [show dist2 ![u1.x, u1.y, alt1] ![u2.x, u2.y, alt2] = (u1.x - u2.x) ^ 2 + (u1.y - u2.y) ^ 2 from rfl, a4, b4, hN1, hN2,
    a1, b1]
  simp only [falseOrigin, h0, if_false, if_true, Bool.false_eq_true]
  rw [abs_le] at hd
  generalize (g.proj (g.standard lat1 lon1) lat1 lon1).2 = y1 at hd ⊢
  generalize (g.proj (g.standard lat1 lon1) lat2 lon2).2 = y2 at hd ⊢
  nlinarith [sq_nonneg (u1.x - u2.x)]

/-! ## The hypotheses can be met -/

theorem plain_standard (lat lon : ℝ) (k : Int) (h1 : -80 ≤ lat) (h2 : lat < 84) (h3 : 6 * k ≤ lon) (h4 : lon < 6 * (k + 1))
    (h5 : -30 ≤ k) (h6 : k < 30) : plain.standard lat lon = k + 31 := by
  show (if _ then _ else _) = _
  rw [if_pos ⟨by linarith, h2⟩]
  have : ⌊(lon + 180) / 6⌋ = k + 30 := by
    rw [Int.floor_eq_iff]
    constructor <;> push_cast <;> linarith
  rw [this]
  omega

theorem plain_forward_31 (lat lon : ℝ) (h1 : -80 ≤ lat) (h2 : lat < 84) (h3 : -1 ≤ lon) (h4 : lon < 7) :
    plain.forward lat lon 31 = some
      { zone := 31, north := decide (0 ≤ lat), x := 110000 * (lon - 3) + 500000
        y := 110000 * lat + if 0 ≤ lat then 0 else 10000000, conv := 0 } := by
  have h := forward_intro plain lat lon 31 (by norm_num) (abs_le.2 ⟨by linarith, by linarith⟩) (by norm_num) ?_
  · rw [h]
    by_cases h0 : 0 ≤ lat <;> simp [plain, falseOrigin, h0] <;> ring
  · by_cases h0 : 0 ≤ lat
    · simp only [plain, falseOrigin, h0, decide_true, Legal]
      norm_num
      constructor <;> constructor <;> linarith
    · simp only [plain, falseOrigin, h0, decide_false, Legal]
      norm_num
      constructor <;> constructor <;> linarith

theorem plain_forward (lat lon : ℝ) (h1 : 0 ≤ lat) (h2 : lat < 84) (h3 : 0 ≤ lon) (h4 : lon < 6) :
    plain.forward lat lon (-1) = some { zone := 31, north := true, x := 110000 * (lon - 3) + 500000, y := 110000 * lat, conv := 0 } := by
  rw [forward_std plain lat lon 31 (plain_standard lat lon 0 (by linarith) h2 (by simpa using h3) (by norm_num; exact h4) (by norm_num)
    (by norm_num)) (by norm_num), plain_forward_31 lat lon (by linarith) h2 (by linarith) (by linarith)]
  simp [h1]

/-- C50 and C54: after the small run, places in the zone are converted and returned. -/
example : ∃ s v, (run plain (demoPar false true false) false false demoInit (demoEvents 48 3 100)).st = some s ∧
    s.fromLL plain (demoPar false true false) 49 4 200 = some (.map (some v)) ∧ s.north = decide ((0 : ℝ) ≤ 49) ∧
    plain.standard 49 4 = s.zone ∧ v 0 = 110000 ∧ v 1 = 110000 ∧ v 2 = 100 := by
  obtain ⟨s, hs, hg, -, -, -, -, -, -, hcw, -, -, -, hu, -⟩ := demo_run plain (demoPar false true false) rfl rfl rfl false false 48 3 100 _
    (plain_forward 48 3 (by norm_num) (by norm_num) (by norm_num) (by norm_num)) rfl
  obtain ⟨hc, hz, hn⟩ := hu rfl
  simp only at hz hn
  have hf := plain_forward 49 4 (by norm_num) (by norm_num) (by norm_num) (by norm_num)
  have hstd : plain.standard 49 4 = 31 := by
    have := (forward_some hf).1
    rw [if_pos rfl] at this
    exact this.symm
  have hf' : plain.forward 49 4 s.zone = plain.forward 49 4 (-1) := by
    rw [hz, ← forward_std plain 49 4 31 hstd (by norm_num)]
  rw [hf] at hf'
  refine ⟨s, s.cartesianToMap (demoPar false true false) ![110000 * (4 - 3) + 500000, 110000 * 49, 200], hs, ?_, ?_,
    hstd.trans hz.symm, ?_⟩
  · unfold St.fromLL
    simp only [demoPar, Bool.false_eq_true, if_false, hf', Option.map_some, hg, if_true]
  · rw [hn]
    norm_num
  · rw [hc] at hcw
    simp only [St.cartesianToMap, hcw, Tf.apply, one_mulVec, demoPar]
    simp
    norm_num

/-- C50 across the equator and C74: a node that started just north of the equator is asked for a point just south of it. -/
example : ∃ s v, (run plain (demoPar false true false) false false demoInit (demoEvents 1 3 100)).st = some s ∧
    s.fromLL plain (demoPar false true false) (-1) 3 100 = some (.map (some v)) ∧ s.north ≠ decide ((0 : ℝ) ≤ -1) ∧
    v 1 = 9780000 := by
  obtain ⟨s, hs, hg, -, -, -, -, -, -, hcw, -, -, -, hu, -⟩ := demo_run plain (demoPar false true false) rfl rfl rfl false false 1 3 100 _
    (plain_forward 1 3 (by norm_num) (by norm_num) (by norm_num) (by norm_num)) rfl
  obtain ⟨hc, hz, hn⟩ := hu rfl
  simp only at hz hn
  have hf := plain_forward_31 (-1) 3 (by norm_num) (by norm_num) (by norm_num) (by norm_num)
  rw [← hz] at hf
  refine ⟨s, s.cartesianToMap (demoPar false true false) ![110000 * (3 - 3) + 500000, 110000 * -1 + 10000000, 100], hs, ?_, ?_, ?_⟩
  · unfold St.fromLL
    simp only [demoPar, Bool.false_eq_true, if_false, hf, Option.map_some, hg, if_true]
    norm_num
  · rw [hn]
    norm_num
  · rw [hc] at hcw
    simp only [St.cartesianToMap, hcw, Tf.apply, one_mulVec, demoPar]
    simp
    norm_num

/-- C54, two zones: a fix six hundred metres past the border of the zone is published 659 km away. -/
example : ∃ s v u1 u2, (run plain (demoPar false true false) false false demoInit (demoEvents 48 3 100)).st = some s ∧
    s.fromLL plain (demoPar false true false) 48 6.005 100 = some (.map (some v)) ∧
    plain.forward 48 6.005 (-1) = some u1 ∧ plain.forward 48 6.005 s.zone = some u2 ∧ u2.x - u1.x = 660000 ∧
    (s.fix plain (demoPar false true false) (demoFix 4 48 6.005 100)).isSome := by
  obtain ⟨s, hs, hg, -, -, -, -, -, -, -, -, -, -, hu, -⟩ := demo_run plain (demoPar false true false) rfl rfl rfl false false 48 3 100 _
    (plain_forward 48 3 (by norm_num) (by norm_num) (by norm_num) (by norm_num)) rfl
  obtain ⟨-, hz, -⟩ := hu rfl
  simp only at hz
  have hf := plain_forward_31 48 6.005 (by norm_num) (by norm_num) (by norm_num) (by norm_num)
  obtain ⟨u1, hu1⟩ := Option.isSome_iff_exists.1 (plain_lawful.standard_ok 48 6.005 (by norm_num [abs_le]) (by norm_num [abs_le]))
  obtain ⟨a1, a2, a3, -⟩ := forward_some hu1
  rw [if_pos rfl, plain_standard 48 6.005 1 (by norm_num) (by norm_num) (by norm_num) (by norm_num) (by norm_num) (by norm_num)] at a1
  refine ⟨s, s.cartesianToMap (demoPar false true false)
    ![110000 * (6.005 - 3) + 500000, 110000 * 48 + if (0 : ℝ) ≤ 48 then 0 else 10000000, 100], u1, _, hs, ?_, hu1, by rw [hz]; exact hf,
    ?_, ?_⟩
  · unfold St.fromLL
    rw [hz, hf]
    simp only [demoPar, Bool.false_eq_true, if_false, Option.map_some, hg, if_true]
  · rw [a3, a1]
    simp [plain, falseOrigin]
    norm_num
  · unfold St.fix
    simp [demoFix, hu1]

/-- C50 and C54 in local mode: the datum is 500 km from the false origin of its zone. -/
example : ∃ s u, (run plain (demoPar false true true) false false demoInit (demoEvents 0 3 100)).st = some s ∧ s.good = true ∧
    s.enu0 = (0, 3) ∧ plain.enu s.enu0.1 s.enu0.2 0 3.5 100 0 < 1200000 ∧ plain.forward 0 3 (-1) = some u ∧ u.x = 500000 := by
  have hf := plain_forward 0 3 (by norm_num) (by norm_num) (by norm_num) (by norm_num)
  obtain ⟨s, hs, hg, -, -, -, -, -, -, -, -, -, -, -, hl⟩ := demo_run plain (demoPar false true true) rfl rfl rfl false false 0 3 100 _ hf rfl
  obtain ⟨-, -, -, he⟩ := hl rfl
  refine ⟨s, _, hs, hg, he, ?_, hf, by norm_num⟩
  rw [he]
  simp [plain]
  norm_num

end RL.Nav
