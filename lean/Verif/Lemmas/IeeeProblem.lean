import Verif.Lemmas.IeeePath

/-!
# The generated constraints with IEEE doubles that are neither huge nor tiny
-/

set_option autoImplicit false

namespace Trajopt

open Spec Ieee

namespace Ieee

theorem Faithful.reads {E : Type} [Dbl E] {f : Ieee → E} (hf : Faithful f) {k : ℤ} (h0 : 0 ≤ k) (h1 : k < 1023) :
    Reads f (Fits k) where
  zero := hf.lit 0 (fits_lit (k := 0) (by simp) (by norm_num) (by norm_num)).1.1
  zero_mem := (fits_lit (k := 0) (by simp) (by norm_num) (by norm_num)).1.mono h0
  add ha hb := hf.add ha.1 hb.1 (fits_add ha hb (by omega) h1).1.1
  le ha hb := by
    have hz : (Num.lit 0 : Ieee).Finite := (fits_lit (k := 0) (by simp) (by norm_num) (by norm_num)).1.1
    rw [← hf.lit 0 hz]
    exact hf.le hz (fits_add ha hb (by omega) h1).1.1
  cos ha := hf.cos ha.1
  sin ha := hf.sin ha.1

end Ieee

section
variable {D E : Type} [Dbl D] [Dbl E] (f : D → E)

theorem map_add (a b : Expr D) : (a + b).map f = a.map f + b.map f := rfl
theorem map_sub (a b : Expr D) : (a - b).map f = a.map f - b.map f := rfl
theorem map_mul (a b : Expr D) : (a * b).map f = a.map f * b.map f := rfl
theorem map_div (a b : Expr D) : (a / b).map f = a.map f / b.map f := rfl
theorem map_neg (a : Expr D) : (-a).map f = -a.map f := rfl
theorem map_sin (a : Expr D) : (Num.sin a).map f = Num.sin (a.map f) := rfl
theorem map_cos (a : Expr D) : (Num.cos a).map f = Num.cos (a.map f) := rfl
theorem map_sign (a : Expr D) : (Num.sign a).map f = Num.sign (a.map f) := rfl
theorem map_hypot (a b : Expr D) : (Num.hypot a b).map f = Num.hypot (a.map f) (b.map f) := rfl
theorem map_lit (q : ℚ) (h : f (Num.lit q) = Num.lit q) : (Num.lit q : Expr D).map f = Num.lit q := by
  change Expr.const _ = Expr.const _
  rw [h]

end

namespace Ieee

variable {E : Type} [Dbl E] {f : Ieee → E} (hf : Faithful f)

theorem finite_lit {q : ℚ} (h : |(q : ℝ)| ≤ 2 ^ (10 : ℤ)) : (Num.lit q : Ieee).Finite :=
  (fits_lit h (by norm_num) (by norm_num)).1.1

include hf

theorem Faithful.lit0 : f (Num.lit 0) = Num.lit 0 := hf.lit 0 (finite_lit (by norm_num))
theorem Faithful.lit1 : f (Num.lit 1) = Num.lit 1 := hf.lit 1 (finite_lit (by norm_num))
theorem Faithful.expr0 : (Num.lit 0 : Expr Ieee).map f = Num.lit 0 := map_lit f 0 hf.lit0
theorem Faithful.expr1 : (Num.lit 1 : Expr Ieee).map f = Num.lit 1 := map_lit f 1 hf.lit1

theorem map_kinCons (m n n' v : ℕ) :
    (kinCons (sampleVars m n) (sampleVars m n') (.var v) : List (Con Ieee)).map (Con.map f) =
      kinCons (sampleVars m n) (sampleVars m n') (.var v) := by
  simp only [kinCons, Translation2.eqCons, Rotation2.eqCons, List.map_append, List.map_cons, List.map_nil,
    Con.map, if_true, hf.expr0, hf.expr1]
  rfl

theorem map_lpd (a b p : Translation2 (Expr Ieee)) :
    (linePointDistance a b p).map f = linePointDistance
      (⟨a.x.map f, a.y.map f⟩ : Translation2 (Expr E)) ⟨b.x.map f, b.y.map f⟩ ⟨p.x.map f, p.y.map f⟩ := by
  have h1 := map_lit f _ (hf.lit (1 / 2) (finite_lit (by norm_num [abs_le])))
  have h2 := map_lit f _ (hf.lit (-1 / 2) (finite_lit (by norm_num [abs_le])))
  have hmax : ∀ a b : Expr Ieee, (lpdMax a b).map f = lpdMax (a.map f) (b.map f) := by
    intro a b
    simp only [lpdMax, map_add, map_mul, map_sub, map_sign, hf.expr1, h1]
  have hmin : ∀ a b : Expr Ieee, (lpdMin a b).map f = lpdMin (a.map f) (b.map f) := by
    intro a b
    simp only [lpdMin, map_add, map_mul, map_sub, map_sign, hf.expr1, h2]
  simp only [linePointDistance, Translation2.squaredNorm, Translation2.dot, Translation2.sub, Translation2.add,
    Translation2.neg, lpdLerp, map_add, map_mul, map_sub, map_neg, map_div, hmax, hmin, hf.expr0, hf.expr1]

theorem map_apply {c : Constraint Ieee} (hc : ∀ d ∈ c.data, Fits 251 d) (m n : ℕ) :
    (c.apply (sampleVars m n)).map (Con.map f) = (c.mapD f).apply (sampleVars m n) := by
  have hsq : ∀ {d : Ieee}, Fits 251 d → f (d * d) = f d * f d := fun hd =>
    hf.mul hd.1 hd.1 (fits_mul hd hd (by norm_num) (by norm_num)).1.1
  have heq : ∀ {d : Ieee}, Fits 251 d → Dbl.eq (f d) (Num.lit 0 : E) = Dbl.eq d (Num.lit 0) := fun hd => by
    rw [← hf.lit0]
    exact hf.eq hd.1 (finite_lit (by norm_num))
  cases c with
  | angularVelocityMaxMagnitude a =>
    have ha : Fits 251 a := hc a (by simp [Constraint.data])
    simp only [Constraint.apply, Constraint.mapD, heq ha]
    split
    · simp only [List.map_cons, List.map_nil, Con.map, hf.expr0]
      rfl
    · simp only [List.map_cons, List.map_nil, Con.map, Expr.map, hf.neg ha.1]
      rfl
  | linePoint a b p d =>
    have hd : Fits 251 d := hc d (by simp [Constraint.data])
    simp only [Constraint.apply, Constraint.mapD, List.map_cons, List.map_nil, Con.map, Expr.map, map_lpd hf, hsq hd]
    rfl
  | linearAccelerationMaxMagnitude a =>
    have ha : Fits 251 a := hc a (by simp [Constraint.data])
    simp only [Constraint.apply, Constraint.mapD, heq ha]
    split
    · simp only [List.map_cons, List.map_nil, Con.map, hf.expr0]
      rfl
    · simp only [List.map_cons, List.map_nil, Con.map, Expr.map, hsq ha]
      rfl
  | linearVelocityDirection a =>
    have ha : Fits 251 a := hc a (by simp [Constraint.data])
    simp only [Constraint.apply, Constraint.mapD, Rotation2.ofAngle, List.map_cons, List.map_nil, Con.map,
      Translation2.dot, Expr.map, hf.sin ha.1, hf.cos ha.1]
    rfl
  | linearVelocityMaxMagnitude a =>
    have ha : Fits 251 a := hc a (by simp [Constraint.data])
    simp only [Constraint.apply, Constraint.mapD, heq ha]
    split
    · simp only [List.map_cons, List.map_nil, Con.map, hf.expr0]
      rfl
    · simp only [List.map_cons, List.map_nil, Con.map, Expr.map, hsq ha]
      rfl
  | pointAt p t =>
    have ht : Fits 251 t := hc t (by simp [Constraint.data])
    simp only [Constraint.apply, Constraint.mapD, List.map_cons, List.map_nil, Con.map, map_sub,
      map_hypot, Expr.map, hf.cos ht.1]
    rfl
  | pointLine r a b d =>
    have hd : Fits 251 d := hc d (by simp [Constraint.data])
    simp only [Constraint.apply, Constraint.mapD, List.map_cons, List.map_nil, Con.map, Expr.map, map_lpd hf, hsq hd]
    rfl
  | pointPoint r p d =>
    have hd : Fits 251 d := hc d (by simp [Constraint.data])
    simp only [Constraint.apply, Constraint.mapD, List.map_cons, List.map_nil, Con.map, map_sub, Expr.map, hsq hd]
    rfl
  | poseEquality x y h =>
    have hh : Fits 251 h := hc h (by simp [Constraint.data])
    simp only [Constraint.apply, Constraint.mapD, Pose2.eqCons, Pose2.ofXYHeading, Translation2.eqCons,
      Rotation2.eqCons, Rotation2.ofAngle, Translation2.toV, Rotation2.toV, List.map_append, List.map_cons, List.map_nil, Con.map,
      map_sub, Expr.map, hf.expr0, hf.expr1, hf.sin hh.1, hf.cos hh.1, if_true,
      Bool.false_eq_true, if_false]
    rfl
  | translationEquality t => rfl

/-- The numbers of a module are neither huge nor, for the radius, tiny. -/
structure ModuleFits (md : SwerveModule Ieee) : Prop where
  x : Fits 251 md.translation.x
  y : Fits 251 md.translation.y
  radius : Fits 251 md.wheelRadius
  speed : Fits 251 md.wheelMaxAngularVelocity
  torque : Fits 251 md.wheelMaxTorque
  small : 2 ^ (-250 : ℤ) ≤ |md.wheelRadius.value|

theorem map_powerCons {md : SwerveModule Ieee} (h : ModuleFits md) (m n i : ℕ) :
    (powerCons (sampleVars m n) (forceVars m n i) md).map (Con.map f) =
      powerCons (sampleVars m n) (forceVars m n i) (md.mapD f) := by
  have h1 := (fits_mul h.radius h.speed (by norm_num) (by norm_num)).1
  have h2 := (fits_mul h1 h1 (by norm_num) (by norm_num)).1
  have h3 := (fits_div h.torque h.radius.1 h.small (by norm_num) (by norm_num)).1
  have h4 := (fits_mul h3 h3 (by norm_num) (by norm_num)).1
  have h0 : md.wheelRadius.value ≠ 0 := fun h0 => by
    have := h.small
    rw [h0, abs_zero] at this
    exact absurd this (not_le.mpr (by positivity))
  simp only [powerCons, SwerveModule.mapD, List.map_cons, List.map_nil, Con.map, Translation2.squaredNorm,
    map_sub, Expr.map, hf.mul h1.1 h1.1 h2.1, hf.mul h.radius.1 h.speed.1 h1.1, hf.mul h3.1 h3.1 h4.1,
    hf.div h.torque.1 h.radius.1 h0 h3.1]
  rfl

theorem map_powerList {mods : List (SwerveModule Ieee)} (h : ∀ md ∈ mods, ModuleFits md) (m n i : ℕ) :
    (powerList m n mods i).map (Con.map f) = powerList m n (mods.map (SwerveModule.mapD f)) i := by
  induction mods generalizing i with
  | nil => rfl
  | cons md mods ih =>
    rw [powerList, List.map_append, map_powerCons hf (h md List.mem_cons_self),
      ih (fun x hx => h x (List.mem_cons_of_mem _ hx))]
    rfl

omit hf in
theorem map_torque (mods : List (SwerveModule Ieee)) (m n i : ℕ) (tau : Expr Ieee) :
    (torqueExpr m n mods i tau).map f = torqueExpr m n (mods.map (SwerveModule.mapD f)) i (tau.map f) := by
  induction mods generalizing i tau with
  | nil => rfl
  | cons md mods ih =>
    rw [torqueExpr, ih]
    rfl

theorem map_accumulate (F : List ℕ) : (accumulate F : Expr Ieee).map f = accumulate F := by
  have : ∀ (acc : Expr Ieee), (F.foldl (fun acc f => acc + .var f) acc).map f =
      F.foldl (fun acc f => acc + .var f) (acc.map f) := by
    induction F with
    | nil => intro; rfl
    | cons x F ih =>
      intro acc
      rw [List.foldl_cons, ih]
      rfl
  rw [accumulate, this, hf.expr0]
  rfl

theorem map_dynCons {dr : SwerveDrivetrain Ieee} (h : ∀ md ∈ dr.modules, ModuleFits md) (n : ℕ) :
    (dynCons dr n).map (Con.map f) = dynCons (dr.mapD f) n := by
  have hl : (dr.mapD f).modules.length = dr.modules.length := List.length_map ..
  simp only [dynCons, hl, List.map_append, map_powerList hf h, List.map_cons, List.map_nil, Con.map, map_accumulate hf,
    map_torque, hf.expr0]
  rfl

omit hf in
theorem map_stepCap {w : Option Ieee} (v : ℕ) (md : SwerveModule Ieee) :
    (stepCap w v md).map f = stepCap (w.map f) v (md.mapD f) := by
  cases w <;> rfl

theorem map_minStep {w : Option Ieee} {v : Ieee} (hw : ∀ x ∈ w, x.Finite) (hv : v.Finite) :
    (minWidthStep w v).map f = minWidthStep (w.map f) (f v) ∧ ∀ x ∈ minWidthStep w v, x.Finite := by
  cases w with
  | none =>
    refine ⟨rfl, fun x hx => ?_⟩
    rw [minWidthStep, Option.mem_some_iff] at hx
    exact hx ▸ hv
  | some w =>
    have hw' : w.Finite := hw w rfl
    have key := hf.lt hv hw'
    constructor
    · change some (f (Dbl.min w v)) = some (Dbl.min (f w) (f v))
      unfold Dbl.min
      rw [key]
      split <;> rfl
    · intro x hx
      change x ∈ some (Dbl.min w v) at hx
      rw [Option.mem_some_iff] at hx
      rw [← hx]
      unfold Dbl.min
      split
      · exact hv
      · exact hw'

theorem map_minLoop {mods : List (SwerveModule Ieee)} (h : ∀ md ∈ mods, ModuleFits md) {w : Option Ieee}
    (hw : ∀ x ∈ w, x.Finite) :
    minWidthLoop (w.map f) (mods.map (SwerveModule.mapD f)) = (minWidthLoop w mods).map f := by
  induction mods generalizing w with
  | nil => rfl
  | cons a mods ih =>
    cases mods with
    | nil => rfl
    | cons b rest =>
      have ha := h a (by simp)
      have hb := h b (by simp)
      have hx := (fits_sub ha.x hb.x (by norm_num) (by norm_num)).1
      have hy := (fits_sub ha.y hb.y (by norm_num) (by norm_num)).1
      have hx' := (fits_abs hx).1
      have hy' := (fits_abs hy).1
      have z : (Num.lit 0 : Ieee).Finite := finite_lit (by norm_num)
      have ex : Dbl.abs ((a.mapD f).translation.x - (b.mapD f).translation.x) =
          f (Dbl.abs (a.translation.x - b.translation.x)) := by
        rw [hf.abs hx.1, hf.sub ha.x.1 hb.x.1 hx.1]
        rfl
      have ey : Dbl.abs ((a.mapD f).translation.y - (b.mapD f).translation.y) =
          f (Dbl.abs (a.translation.y - b.translation.y)) := by
        rw [hf.abs hy.1, hf.sub ha.y.1 hb.y.1 hy.1]
        rfl
      have tx := hf.eq hx'.1 z
      have ty := hf.eq hy'.1 z
      rw [hf.lit0] at tx ty
      have one : ∀ {w : Option Ieee} {v : Ieee} (t : Bool), (∀ x ∈ w, x.Finite) → v.Finite →
          (if t then minWidthStep (w.map f) (f v) else w.map f) = (if t then minWidthStep w v else w).map f ∧
          ∀ x ∈ (if t then minWidthStep w v else w), x.Finite := by
        intro w v t hw hv
        cases t
        · exact ⟨rfl, hw⟩
        · obtain ⟨h1, h2⟩ := map_minStep hf hw hv
          exact ⟨h1.symm, h2⟩
      have s1 := one (!Dbl.eq (Dbl.abs (a.translation.x - b.translation.x)) (Num.lit 0)) hw hx'.1
      have s2 := one (!Dbl.eq (Dbl.abs (a.translation.y - b.translation.y)) (Num.lit 0)) s1.2 hy'.1
      rw [List.map_cons, List.map_cons, minWidthLoop, minWidthLoop]
      simp only [ex, ey, tx, ty]
      rw [s1.1, s2.1, ← List.map_cons]
      exact ih (fun x hx => h x (List.mem_cons_of_mem _ hx)) s2.2

theorem map_minWidth {mods : List (SwerveModule Ieee)} (h : ∀ md ∈ mods, ModuleFits md) :
    minWidth (mods.map (SwerveModule.mapD f)) = (minWidth mods).map f :=
  map_minLoop hf h (w := none) (by simp)

/-- The numbers of all constraints of a path are not huge. -/
def PathFits (path : SwervePath Ieee) : Prop :=
  ∀ w ∈ path.waypoints, ∀ c ∈ w.waypointConstraints ++ w.segmentConstraints, ∀ d ∈ c.data, Fits 251 d

omit [Dbl E] hf in
theorem getD_mapD (l : List (Waypoint Ieee)) (w : ℕ) :
    (l.map (Waypoint.mapD f)).getD w {} = Waypoint.mapD f (l.getD w {}) := by
  rw [List.getD_eq_getElem?_getD, List.getD_eq_getElem?_getD, List.getElem?_map]
  cases l[w]? <;> rfl

theorem map_allCons {path : SwervePath Ieee} {dr : SwerveDrivetrain Ieee} (N : List ℕ) (hp : PathFits path)
    (hd : ∀ md ∈ dr.modules, ModuleFits md) :
    (allCons path dr N).map (Con.map f) = allCons (path.mapD f) (dr.mapD f) N := by
  have hl : (dr.mapD f).modules.length = dr.modules.length := List.length_map ..
  have hmods : (dr.mapD f).modules = dr.modules.map (SwerveModule.mapD f) := rfl
  have hfit : ∀ w, ∀ c ∈ (path.waypoints.getD w {}).waypointConstraints ++ (path.waypoints.getD w {}).segmentConstraints,
      ∀ d ∈ c.data, Fits 251 d := by
    intro w
    rw [List.getD_eq_getElem?_getD]
    rcases hw : path.waypoints[w]? with _ | wp
    · simp
    · exact hp wp (List.mem_of_getElem? hw)
  simp only [allCons, List.map_append, hl]
  congr 1
  congr 1
  congr 1
  congr 1
  congr 1
  · rw [List.map_flatMap]
    congr 1
    funext dt
    rw [hmods, List.map_map, List.map_map, map_minWidth hf hd]
    exact List.map_congr_left fun md _ => map_stepCap dt md
  · rw [List.map_map]
    refine List.map_congr_left fun x _ => ?_
    simp only [Function.comp, Con.map, hf.expr0]
    rfl
  · simp only [kinList, List.map_flatMap, map_kinCons hf]
  · rw [List.map_flatMap]
    simp only [map_dynCons hf hd]
  · simp only [wptList, List.map_flatMap]
    congr 1
    funext w
    rw [show (path.mapD f).waypoints = path.waypoints.map (Waypoint.mapD f) from rfl, getD_mapD]
    rw [show ∀ w : Waypoint Ieee, (w.mapD f).waypointConstraints = w.waypointConstraints.map (Constraint.mapD f) from fun _ => rfl,
      List.flatMap_map]
    refine List.flatMap_congr fun c hc => ?_
    exact map_apply hf (hfit w c (List.mem_append_left _ hc)) _ _
  · simp only [sgmtList, List.map_flatMap]
    congr 1
    funext w
    rw [show (path.mapD f).waypoints = path.waypoints.map (Waypoint.mapD f) from rfl, getD_mapD]
    rw [show ∀ w : Waypoint Ieee, (w.mapD f).segmentConstraints = w.segmentConstraints.map (Constraint.mapD f) from fun _ => rfl,
      List.flatMap_map]
    refine List.flatMap_congr fun c hc => ?_
    refine List.flatMap_congr fun n _ => ?_
    exact map_apply hf (hfit _ c (List.mem_append_right _ hc)) _ _

end Ieee

end Trajopt
