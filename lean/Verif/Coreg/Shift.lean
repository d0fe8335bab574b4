import Verif.Coreg.Fit

namespace Verif.Coreg

theorem pivot_two0 {N : Mat} {p : ℚ} (hp : 0 < p) (h00 : N 0 0 = p) (h10 : N 1 0 = 0) :
    pivot 2 0 N = (p, 0) := by
  unfold pivot
  rw [show List.range' 0 (2 - 0) = [0, 1] from rfl, List.foldl_cons, List.foldl_cons, List.foldl_nil, h00, h10]
  simp [hp.ne']

theorem pivot_two1 (N : Mat) : pivot 2 1 N = (N 1 1, 1) := by
  unfold pivot
  rw [show List.range' 1 (2 - 1) = [1] from rfl, List.foldl_cons, List.foldl_nil]
  simp

theorem swap_same (k : Nat) (A : Mat) : swapMat k k A = A := by
  funext i j
  unfold swapMat
  by_cases h : i = k <;> simp [h]

theorem swapVec_same (k : Nat) (B : Vec) : swapVec k k B = B := by
  funext i
  unfold swapVec
  by_cases h : i = k <;> simp [h]

theorem solve_diag {N : Mat} {U : Vec} {p : ℚ} (hp : 0 < p) (h00 : N 0 0 = p) (h01 : N 0 1 = 0) (h10 : N 1 0 = 0)
    (h11 : N 1 1 = p) :
    ∃ N' x, solve 2 N U = some (N', x) ∧ N' 0 0 = p ∧ N' 0 1 = 0 ∧ N' 1 0 = 0 ∧ N' 1 1 = p ∧
      x 0 = U 0 / p ∧ x 1 = U 1 / p := by
  have hs0 : stage 2 (N, U) 0 = some (elimMat 0 p N, elimVec 0 p N U) := by
    unfold stage
    dsimp only
    rw [pivot_two0 hp h00 h10]
    dsimp only
    rw [swap_same, swapVec_same, if_neg (by rw [abs_of_pos hp]; linarith)]
  have e00 : elimMat 0 p N 0 0 = p := by simp [elimMat, h00]
  have e01 : elimMat 0 p N 0 1 = 0 := by simp [elimMat, h01]
  have e10 : elimMat 0 p N 1 0 = 0 := by simp [elimMat, h10]
  have e11 : elimMat 0 p N 1 1 = p := by simp [elimMat, h01, h11]
  have hs1 : stage 2 (elimMat 0 p N, elimVec 0 p N U) 1 =
      some (elimMat 1 p (elimMat 0 p N), elimVec 1 p (elimMat 0 p N) (elimVec 0 p N U)) := by
    unfold stage
    dsimp only
    rw [pivot_two1, e11]
    dsimp only
    rw [swap_same, swapVec_same, if_neg (by rw [abs_of_pos hp]; linarith)]
  have hsol : solve 2 N U = some (elimMat 1 p (elimMat 0 p N),
      back 2 (elimMat 1 p (elimMat 0 p N)) (elimVec 1 p (elimMat 0 p N) (elimVec 0 p N U))) := by
    unfold solve
    rw [show List.range 2 = [0, 1] from rfl, List.foldlM_cons, hs0]
    show Option.map _ (List.foldlM (stage 2) (elimMat 0 p N, elimVec 0 p N U) [1]) = _
    rw [List.foldlM_cons, hs1]
    rfl
  have hx := (c225_solution hsol (fun i => U i / p)).1 (by
    intro i hi
    have hp' : p ≠ 0 := hp.ne'
    rw [Finset.sum_range_succ, Finset.sum_range_succ, Finset.sum_range_zero]
    interval_cases i
    · rw [h00, h01]; field_simp; ring
    · rw [h10, h11]; field_simp; ring)
  refine ⟨_, _, hsol, ?_, ?_, ?_, ?_, (hx 0 (by omega)).symm, (hx 1 (by omega)).symm⟩
  · simp [elimMat, h00]
  · simp [elimMat, h01]
  · simp [elimMat, h10]
  · rw [show elimMat 1 p (elimMat 0 p N) 1 1 = elimMat 0 p N 1 1 by simp [elimMat], e11]

theorem rows_N (ties : List Tie) (N : Mat) :
    addN (ties.flatMap (Kind.rows .translation)) N 0 0 = N 0 0 + ties.length ∧
    addN (ties.flatMap (Kind.rows .translation)) N 0 1 = N 0 1 ∧
    addN (ties.flatMap (Kind.rows .translation)) N 1 0 = N 1 0 ∧
    addN (ties.flatMap (Kind.rows .translation)) N 1 1 = N 1 1 + ties.length := by
  unfold addN
  induction ties with
  | nil => simp
  | cons t ties ih =>
    obtain ⟨h1, h2, h3, h4⟩ := ih
    simp only [List.flatMap_cons, List.map_append, List.sum_append, List.length_cons, Nat.cast_add, Nat.cast_one]
    have r : Kind.rows .translation t = [((fun k => if k = 0 then 1 else 0 : Vec), t.x2 - t.x1),
      ((fun k => if k = 1 then 1 else 0 : Vec), t.y2 - t.y1)] := rfl
    rw [r]
    simp only [List.map_cons, List.map_nil, List.sum_cons, List.sum_nil]
    norm_num at h1 h2 h3 h4 ⊢
    refine ⟨?_, h2, h3, ?_⟩
    · rw [h1]; ring
    · rw [h4]; ring

theorem rows_U (ties : List Tie) (c U : Vec) :
    addU 2 (ties.flatMap (Kind.rows .translation)) c U 0 =
      U 0 + ((ties.map (fun t => t.x2 - t.x1)).sum - ties.length * c 0) ∧
    addU 2 (ties.flatMap (Kind.rows .translation)) c U 1 =
      U 1 + ((ties.map (fun t => t.y2 - t.y1)).sum - ties.length * c 1) := by
  unfold addU
  induction ties with
  | nil => simp
  | cons t ties ih =>
    obtain ⟨h1, h2⟩ := ih
    have d0 : dot 2 (fun k => if k = 0 then (1 : ℚ) else 0) c = c 0 := by
      simp [dot_eq, Finset.sum_range_succ]
    have d1 : dot 2 (fun k => if k = 1 then (1 : ℚ) else 0) c = c 1 := by
      simp [dot_eq, Finset.sum_range_succ]
    simp only [List.flatMap_cons, List.map_append, List.sum_append, List.length_cons, Nat.cast_add, Nat.cast_one,
      List.map_cons, List.sum_cons]
    simp only [Kind.rows, List.map_cons, List.map_nil, List.sum_cons, List.sum_nil] at h1 h2 ⊢
    rw [d0, d1]
    norm_num at h1 h2 ⊢
    constructor
    · rw [h1]; ring
    · rw [h2]; ring

/-- C226: with two or more tie points whose mean difference is smaller than one pixel in both directions, the
fitted shift is the mean difference. (Missing: larger differences; see `c226_shift_violated`.) -/
theorem c226_shift_partial (ties : List Tie) (old : Vec) (hn : 2 ≤ ties.length) (tx ty : ℚ)
    (hx : tx = (ties.map (fun t => t.x2 - t.x1)).sum / ties.length)
    (hy : ty = (ties.map (fun t => t.y2 - t.y1)).sum / ties.length) (h0 : |tx| < 1) (h1 : |ty| < 1) (x y : ℚ) :
    transformed .translation (coefficients .translation ties old) x y = Spec.shift tx ty x y := by
  have hp : (0 : ℚ) < ties.length := by exact_mod_cast (by omega : 0 < ties.length)
  have hp' : (ties.length : ℚ) ≠ 0 := hp.ne'
  obtain ⟨n00, n01, n10, n11⟩ := rows_N ties (fun _ _ => 0)
  obtain ⟨u0, u1⟩ := rows_U ties (fun i => if i < Kind.size .translation then Kind.start .translation i else old i) (fun _ => 0)
  rw [zero_add] at n00 n11
  obtain ⟨N', z, hs, -, -, -, -, z0, z1⟩ := solve_diag
    (U := addU 2 (ties.flatMap (Kind.rows .translation))
      (fun i => if i < Kind.size .translation then Kind.start .translation i else old i) (fun _ => 0)) hp n00 n01 n10 n11
  rw [u0] at z0
  rw [u1] at z1
  have z0' : z 0 = tx := by rw [z0, hx]; simp [Kind.size, Kind.start]
  have z1' : z 1 = ty := by rw [z1, hy]; simp [Kind.size, Kind.start]
  have hc : coefficients .translation ties old = fun i => if i < Kind.size .translation then
      (if i < Kind.size .translation then Kind.start .translation i else old i) + z i
      else (if i < Kind.size .translation then Kind.start .translation i else old i) := by
    unfold coefficients
    rw [if_neg (by simp only [Kind.size]; omega)]
    unfold iterate
    rw [show Kind.size .translation = 2 from rfl] at *
    rw [hs]
    dsimp only
    rw [show Kind.second .translation = 1 from rfl, z0', z1', (small_iff tx).2 h0, (small_iff ty).2 h1]
    rfl
  unfold transformed Spec.shift
  rw [hc]
  simp only [Kind.size, Kind.start, show (0:Nat) < 2 by omega, show (1:Nat) < 2 by omega, if_true, z0', z1', zero_add]
  rw [add_comm tx x, add_comm ty y]

/-- C226, violated: if the mean difference of the tie points is one pixel or more in one direction, the
fitted shift is too large by the fraction 1/(2n), where n is the number of tie points, in both directions: the
normal equations of the first step are not cleared before the second one. -/
theorem c226_shift_violated (ties : List Tie) (old : Vec) (hn : 2 ≤ ties.length) (tx ty : ℚ)
    (hx : tx = (ties.map (fun t => t.x2 - t.x1)).sum / ties.length)
    (hy : ty = (ties.map (fun t => t.y2 - t.y1)).sum / ties.length)
    (hbig : 1 ≤ |tx| ∨ 1 ≤ |ty|) (h0 : |tx| < 2 * ties.length) (h1 : |ty| < 2 * ties.length) (x y : ℚ) :
    transformed .translation (coefficients .translation ties old) x y =
      Spec.shift (tx * (1 + 1 / (2 * ties.length))) (ty * (1 + 1 / (2 * ties.length))) x y := by
  have hp : (0 : ℚ) < ties.length := by exact_mod_cast (by omega : 0 < ties.length)
  have hp' : (ties.length : ℚ) ≠ 0 := hp.ne'
  have sx : (ties.map (fun t => t.x2 - t.x1)).sum = ties.length * tx := by rw [hx]; field_simp
  have sy : (ties.map (fun t => t.y2 - t.y1)).sum = ties.length * ty := by rw [hy]; field_simp
  obtain ⟨n00, n01, n10, n11⟩ := rows_N ties (fun _ _ => 0)
  obtain ⟨u0, u1⟩ := rows_U ties (fun i => if i < 2 then Kind.start .translation i else old i) (fun _ => 0)
  rw [zero_add] at n00 n11
  obtain ⟨N', z, hs, m00, m01, m10, m11, z0, z1⟩ := solve_diag
    (U := addU 2 (ties.flatMap (Kind.rows .translation))
      (fun i => if i < 2 then Kind.start .translation i else old i) (fun _ => 0)) hp n00 n01 n10 n11
  rw [u0, sx] at z0
  rw [u1, sy] at z1
  have z0' : z 0 = tx := by rw [z0]; simp [Kind.start, hp']
  have z1' : z 1 = ty := by rw [z1]; simp [Kind.start, hp']
  -- the second step
  obtain ⟨n00', n01', n10', n11'⟩ := rows_N ties N'
  rw [m00] at n00'
  rw [m01] at n01'
  rw [m10] at n10'
  rw [m11] at n11'
  obtain ⟨u0', u1'⟩ := rows_U ties (fun i => if i < 2 then
      (if i < 2 then Kind.start .translation i else old i) + z i
      else (if i < 2 then Kind.start .translation i else old i)) z
  obtain ⟨N'', v, hs', -, -, -, -, v0, v1⟩ := solve_diag
    (U := addU 2 (ties.flatMap (Kind.rows .translation)) (fun i => if i < 2 then
      (if i < 2 then Kind.start .translation i else old i) + z i
      else (if i < 2 then Kind.start .translation i else old i)) z) (by linarith) n00' n01' n10' n11'
  rw [u0', sx] at v0
  rw [u1', sy] at v1
  have v0' : v 0 = tx / (2 * ties.length) := by
    rw [v0]; simp [Kind.start, z0']; field_simp; ring
  have v1' : v 1 = ty / (2 * ties.length) := by
    rw [v1]; simp [Kind.start, z1']; field_simp; ring
  have big : (small tx && small ty) = false := by
    rw [Bool.and_eq_false_iff]
    rcases hbig with h | h
    · left; rw [← Bool.not_eq_true, small_iff]; linarith
    · right; rw [← Bool.not_eq_true, small_iff]; linarith
  have lt : ∀ t : ℚ, |t| < 2 * ties.length → |t / (2 * ties.length)| < 1 := by
    intro t ht
    have : (0 : ℚ) < 2 * ties.length := by linarith
    rw [abs_div, abs_of_pos this, div_lt_one this]
    exact ht
  have hc : ∀ i, i < 2 → coefficients .translation ties old i = z i + v i := by
    intro i hi
    unfold coefficients
    rw [if_neg (by simp only [Kind.size]; omega)]
    rw [iterate, show Kind.size .translation = 2 from rfl, hs]
    dsimp only
    rw [show Kind.second .translation = 1 from rfl, z0', z1', big]
    simp only [Bool.false_eq_true, if_false]
    rw [iterate, show Kind.size .translation = 2 from rfl, hs']
    dsimp only
    rw [show Kind.second .translation = 1 from rfl, v0', v1', (small_iff _).2 (lt tx h0), (small_iff _).2 (lt ty h1)]
    simp [hi, Kind.start]
  unfold transformed Spec.shift
  dsimp only
  rw [hc 0 (by omega), hc 1 (by omega), z0', z1', v0', v1', Prod.mk.injEq]
  constructor <;> ring

end Verif.Coreg
