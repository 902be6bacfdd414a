import Verif.Spec.Obstacle
import Verif.Lemmas.Builder

/-! # Lemmas about obstacle calls -/

set_option autoImplicit false

namespace Trajopt

open Spec Builder

variable {D : Type}

/-- Consecutive corners, by index. -/
theorem zip_tail_eq (l : List (Translation2 D)) :
    l.zip l.tail = (List.range (l.length - 1)).pmap
      (fun i (h : i + 1 < l.length) => (l[i]'(by omega), l[i + 1])) (by
        intro i hi; simp at hi; omega) := by
  apply List.ext_getElem
  · simp
  · intro i h1 h2
    simp

theorem edges_eq (l : List (Translation2 D)) (h : l ≠ []) :
    edges l = l.zip l.tail ++
      if h3 : 3 ≤ l.length then [(l[l.length - 1], l[0])] else [] := by
  match l with
  | [] => contradiction
  | [a] => simp [edges]
  | [a, b] => simp [edges]
  | a :: b :: c :: rest =>
    simp [edges, List.getLast_eq_getElem]

variable [Dbl D]

theorem bumperEdges_eq {asserts : Bool} {bum : List (Translation2 D)} {d : D} (p : Translation2 D)
    (hb : bum ≠ []) (hd : asserts = true → Dbl.le (Num.lit 0) d = true) :
    bumperEdges asserts bum d p =
      ((edges bum).map fun x => (.linePoint x.1 x.2 p d : Constraint D)).map .ok := by
  have hmk : ∀ s e, Constraint.mkLinePoint asserts s e p d = .ok (.linePoint s e p d) := by
    intro s e
    unfold Constraint.mkLinePoint Constraint.assertNonneg
    cases asserts <;> simp_all
  rw [bumperEdges, if_neg (by simpa using hb), edges_eq bum hb]
  simp only [List.map_append, hmk]
  congr 1
  · rw [zip_tail_eq, List.map_pmap, List.map_pmap, ← List.pmap_eq_map (p := fun i => i + 1 < bum.length) (H := by
      intro i hi; simp at hi; omega)]
    apply List.pmap_congr_left
    intro i _ h1 h2
    rw [vat_ok h1, vat_ok (show i < bum.length by omega)]
    rfl
  · split
    next h =>
      rw [vat_ok (show bum.length - 1 < bum.length by omega), vat_ok (show 0 < bum.length by omega)]
      simp only [bind, Except.bind, List.map_cons, List.map_nil]
    next h => simp

theorem obstacleEdges_eq {asserts : Bool} {obs : List (Translation2 D)} {n : ℕ} {d : D}
    (r : Translation2 D) (ho : obs ≠ []) (hn : 3 ≤ obs.length → n = obs.length)
    (hlen : obs.length < 2 ^ 64) (hd : asserts = true → Dbl.le (Num.lit 0) d = true) :
    obstacleEdges asserts n obs d r =
      (((edges obs).map fun x => (.pointLine r x.1 x.2 d : Constraint D)) ++
        match obs with
        | [p] => [.pointPoint r p d]
        | _ => []).map .ok := by
  have hmk : ∀ s e, Constraint.mkPointLine asserts r s e d = .ok (.pointLine r s e d) := by
    intro s e
    unfold Constraint.mkPointLine Constraint.assertNonneg
    cases asserts <;> simp_all
  match obs with
  | [p] =>
    have : Constraint.mkPointPoint asserts r p d = .ok (.pointPoint r p d) := by
      unfold Constraint.mkPointPoint Constraint.assertNonneg
      cases asserts <;> simp_all
    simp [obstacleEdges, edges, vat, this, bind, Except.bind]
  | a :: b :: rest =>
    rw [obstacleEdges, if_pos (by simp), edges_eq _ ho]
    generalize hobs : a :: b :: rest = obs at *
    have hm : (match obs with | [p] => [Constraint.pointPoint r p d] | _ => []) = [] := by
      subst hobs; rfl
    rw [hm]
    simp only [List.map_append, hmk, List.append_nil]
    congr 1
    · rw [zip_tail_eq, List.map_pmap, List.map_pmap, ← List.pmap_eq_map (p := fun i => i + 1 < obs.length) (H := by
        intro i hi; simp at hi; omega)]
      apply List.pmap_congr_left
      intro i _ h1 h2
      rw [vat_ok h1, vat_ok (show i < obs.length by omega)]
      rfl
    · split
      next h =>
        rw [hn h, show wsub obs.length 1 = obs.length - 1 by unfold wsub; omega,
          vat_ok (show obs.length - 1 < obs.length by omega),
          vat_ok (show 0 < obs.length by omega)]
        simp only [bind, Except.bind, List.map_cons, List.map_nil]
      next h => simp

/-- Obstacle shapes the code treats as documented. -/
structure Regular (asserts : Bool) (obs : Obstacle D) (bums : List (Obstacle D)) : Prop where
  obs_ne : obs.points ≠ []
  obs_len : obs.points.length < 2 ^ 64
  bum_ne : ∀ bum ∈ bums, bum.points ≠ []
  same : 3 ≤ obs.points.length → ∀ bum ∈ bums, bum.points.length = obs.points.length
  single : obs.points.length = 1 → ∀ bum ∈ bums.dropLast, bum.points.length ≠ 1
  dist : asserts = true → ∀ bum ∈ bums,
    Dbl.le (Num.lit 0) (bum.safetyDistance + obs.safetyDistance) = true

theorem obstacleConstraints_eq {asserts : Bool} {obs : Obstacle D} {bums : List (Obstacle D)}
    (h : Regular asserts obs bums) :
    obstacleConstraints asserts obs bums = (bums.flatMap (keepOuts obs)).map .ok := by
  induction bums with
  | nil => rfl
  | cons bum rest ih =>
    have hd : asserts = true → Dbl.le (Num.lit 0) (bum.safetyDistance + obs.safetyDistance) = true :=
      fun ha => h.dist ha bum (by simp)
    unfold obstacleConstraints
    dsimp only
    split
    next h1 =>
      have hrest : rest = [] := by
        cases rest with
        | nil => rfl
        | cons r rs => exact absurd h1.1 (h.single h1.2 bum (by simp [List.dropLast]))
      subst hrest
      obtain ⟨p, hp⟩ := List.length_eq_one_iff.mp h1.2
      obtain ⟨r, hr⟩ := List.length_eq_one_iff.mp h1.1
      have : Constraint.mkPointPoint asserts r p (bum.safetyDistance + obs.safetyDistance) =
          .ok (.pointPoint r p (bum.safetyDistance + obs.safetyDistance)) := by
        unfold Constraint.mkPointPoint Constraint.assertNonneg
        cases asserts <;> simp_all
      simp [keepOuts, hp, hr, edges, vat, bind, Except.bind, this]
    next h1 =>
      have hrest := ih ⟨h.obs_ne, h.obs_len, fun x hx => h.bum_ne x (by simp [hx]),
        fun h3 x hx => h.same h3 x (by simp [hx]),
        fun h3 x hx => h.single h3 x (by
          cases rest with
          | nil => simp at hx
          | cons r rs => simp [List.dropLast, hx]),
        fun ha x hx => h.dist ha x (by simp [hx])⟩
      rw [hrest, List.flatMap_cons, List.map_append]
      congr 1
      have h2 : (obs.points.map (bumperEdges asserts bum.points
            (bum.safetyDistance + obs.safetyDistance))).flatten =
          (obs.points.flatMap fun p => (edges bum.points).map fun x =>
            (.linePoint x.1 x.2 p (bum.safetyDistance + obs.safetyDistance) :
              Constraint D)).map .ok := by
        rw [List.map_flatMap, ← List.flatMap_def]
        apply List.flatMap_congr
        intro p _
        exact bumperEdges_eq p (h.bum_ne bum (by simp)) hd
      rw [h2]
      have h3 : ∀ r, obstacleEdges asserts bum.points.length obs.points
          (bum.safetyDistance + obs.safetyDistance) r = _ := fun r => obstacleEdges_eq r h.obs_ne
        (fun h3 => h.same h3 bum (by simp)) h.obs_len hd
      rw [← List.flatMap_def, List.flatMap_congr fun r _ => h3 r, ← List.map_flatMap,
        ← List.map_append]
      congr 1
      unfold keepOuts
      dsimp only
      rw [List.append_assoc]
      congr 1
      cases ho : obs.points with
      | nil => exact absurd ho h.obs_ne
      | cons p ps =>
        cases ps with
        | nil =>
          simp only [edges, List.map_nil, List.nil_append]
          have h0 : ∀ l : List (Translation2 D), l.flatMap (fun _ => ([] : List (Constraint D))) = [] :=
            fun l => by simp
          rw [h0, List.nil_append, ← List.flatMap_pure_eq_map]
          rfl
        | cons => simp

theorem wf_of_exec {b b' : Builder D} {o : Option Fault} {r : Out D}
    (h : Step True b r.1) (hr : r = (b', o)) : WF b' := by
  subst hr; exact h.wf

/-- Recording a list of constraints at a waypoint. -/
theorem recordAll_wpt (i : ℕ) (hi : i < 2 ^ 63) (cs : List (Constraint D)) {b : Builder D}
    (hb : WF b) :
    ∃ b', recordAll (fun c b => b.wptConstraint i c) (cs.map .ok) b = (b', none) ∧
      table b' = (table b).requireAllAt i cs := by
  induction cs generalizing b with
  | nil => exact ⟨b, rfl, rfl⟩
  | cons c cs ih =>
    obtain ⟨b₁, h₁, t₁⟩ := table_wptConstraint hb hi c
    have hwf₁ : WF b₁ := wf_of_exec (step_wptConstraint hb i c) h₁
    obtain ⟨b₂, h₂, t₂⟩ := ih hwf₁
    refine ⟨b₂, by simp only [List.map_cons, recordAll, h₁, andThen, h₂], ?_⟩
    rw [t₂, t₁]
    unfold PathTable.requireAllAt
    rw [if_neg (List.cons_ne_nil c cs)]
    split
    next h => subst h; rfl
    next h =>
      simp only [PathTable.reach, PathTable.requireAt, PathTable.mk.injEq, and_true, true_and]
      refine ⟨by omega, ?_, ?_⟩
      · funext w
        by_cases hw : w = i <;> simp [hw]
      · rw [show max (max (table b).waypoints (i + 1)) (i + 1) -
          max (max (table b).waypoints (i + 1)) 1 = 0 by omega]
        simp

/-- Recording a list of constraints along a range of segments. -/
theorem recordAll_sgmt (asserts : Bool) (i j : ℕ) (hij : i < j) (hj : j < 2 ^ 63)
    (cs : List (Constraint D)) {b : Builder D} (hb : WF b) :
    ∃ b', recordAll (fun c b => b.sgmtConstraint asserts i j c) (cs.map .ok) b = (b', none) ∧
      table b' = (table b).requireAllAlong i j cs := by
  induction cs generalizing b with
  | nil => exact ⟨b, rfl, rfl⟩
  | cons c cs ih =>
    obtain ⟨b₁, h₁, t₁⟩ := table_sgmtConstraint hb asserts hij hj c
    have hwf₁ : WF b₁ := wf_of_exec (step_sgmtConstraint hb asserts i j c) h₁
    obtain ⟨b₂, h₂, t₂⟩ := ih hwf₁
    refine ⟨b₂, by simp only [List.map_cons, recordAll, h₁, andThen, h₂], ?_⟩
    rw [t₂, t₁]
    unfold PathTable.requireAllAlong
    rw [if_neg (List.cons_ne_nil c cs)]
    split
    next h => subst h; rfl
    next h =>
      simp only [PathTable.reach, PathTable.requireAlong, PathTable.mk.injEq, and_true, true_and]
      refine ⟨by omega, ?_, ?_, ?_⟩
      · funext w
        by_cases hw : i ≤ w ∧ w ≤ j <;> simp [hw]
      · funext w
        by_cases hw : i ≤ w ∧ w < j <;> simp [hw]
      · rw [show max (max (table b).waypoints (j + 1)) (j + 1) -
          max (max (table b).waypoints (j + 1)) 1 = 0 by omega]
        simp

/-- What is recorded before the first fault. -/
def recorded : List (Res (Constraint D)) → List (Constraint D)
  | .ok c :: l => c :: recorded l
  | _ => []

/-- The first fault. -/
def firstFault : List (Res (Constraint D)) → Option Fault
  | [] => none
  | .error e :: _ => some e
  | .ok _ :: l => firstFault l

omit [Dbl D] in
theorem recordAll_eq (record : Constraint D → Builder D → Out D) (l : List (Res (Constraint D)))
    (b b' : Builder D) (h : recordAll record ((recorded l).map .ok) b = (b', none)) :
    recordAll record l b = (b', firstFault l) := by
  induction l generalizing b with
  | nil => simpa [recorded, recordAll, firstFault] using h
  | cons x l ih =>
    cases x with
    | error e =>
      simp only [recorded, List.map_nil, recordAll, Prod.mk.injEq, and_true] at h
      simp [recordAll, firstFault, h]
    | ok c =>
      simp only [recorded, List.map_cons, recordAll, firstFault] at h ⊢
      rcases hr : record c b with ⟨b₁, o⟩
      rw [hr] at h
      cases o with
      | none => exact ih b₁ h
      | some e => simp [andThen] at h

omit [Dbl D] in
theorem firstFault_append (l l' : List (Res (Constraint D))) :
    firstFault (l ++ l') = (firstFault l).or (firstFault l') := by
  induction l with
  | nil => simp [firstFault]
  | cons x l ih => cases x <;> simp [firstFault, ih]

end Trajopt
