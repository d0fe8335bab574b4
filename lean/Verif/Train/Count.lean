import Verif.Train.Props

/-!
# Number of training samples; the program runs
-/

namespace Verif.Train

open Verif.Str (Out)
open Verif.Index (truncQ truncQ_eq truncQ_abs)
open Verif.Float

/-! ## Number of training samples -/

theorem nearest_ge {p : Nat} {x r y : ℚ} (h : Nearest p x r) (hy : Rep p y) (hxy : y ≤ x) : y ≤ r := by
  by_contra hc
  push Not at hc
  have := h.2 y hy
  rw [abs_of_nonneg (by linarith), abs_of_nonneg (by linarith)] at this
  linarith

theorem nearest_le {p : Nat} {x r y : ℚ} (h : Nearest p x r) (hy : Rep p y) (hxy : x ≤ y) : r ≤ y := by
  by_contra hc
  push Not at hc
  have := h.2 y hy
  rw [abs_of_nonpos (by linarith), abs_of_nonpos (by linarith)] at this
  linarith

theorem rf_nat (rf : ℚ → ℚ) (hrf : ∀ x, Nearest 24 x (rf x)) (n : Nat) (hn : n ≤ 2 ^ 24) : rf n = n := by
  apply eq_of_nearest_rep _ (hrf n)
  have := rep_int (p := 24) (k := n) (by rw [abs_of_nonneg (by positivity)]; exact_mod_cast hn)
  simpa using this

theorem trunc_of (x : ℚ) (k : Nat) (h1 : (k : ℚ) ≤ x) (h2 : x < k + 1) : truncQ x = k := by
  rw [truncQ_eq, if_pos (le_trans (by positivity) h1), Int.floor_eq_iff]
  constructor <;> push_cast <;> assumption

theorem nTrain_exact (rf : ℚ → ℚ) (hrf : ∀ x, Nearest 24 x (rf x)) (n p : Nat) (hn : n ≤ 167772) (hp : p ≤ 100) :
    nTrain rf n p = (n * p / 100 : Nat) := by
  have hnp : n * p ≤ 16777200 := by
    have := Nat.mul_le_mul hn hp
    omega
  unfold nTrain
  rw [rf_nat rf hrf n (by omega)]
  have e : ((n : ℚ) * p) = ((n * p : Nat) : ℚ) := by push_cast; ring
  rw [e, rf_nat rf hrf (n * p) (by omega)]
  generalize n * p = m at hnp
  have hd : m = 100 * (m / 100) + m % 100 := (Nat.div_add_mod m 100).symm
  have hm : m % 100 < 100 := Nat.mod_lt _ (by norm_num)
  have hk : m / 100 ≤ 167772 := by omega
  generalize m / 100 = k at *
  generalize m % 100 = t at *
  have hq : (m : ℚ) / 100 = k + (t : ℚ) / 100 := by rw [hd]; push_cast; ring
  have ht : (t : ℚ) ≤ 99 := by exact_mod_cast (by omega : t ≤ 99)
  have ht0 : (0 : ℚ) ≤ t := by positivity
  have hr := hrf ((m : ℚ) / 100)
  have h1 : (k : ℚ) ≤ rf ((m : ℚ) / 100) := by
    apply nearest_ge hr
    · have := rep_int (p := 24) (k := (k : Int)) (by
        rw [abs_of_nonneg (by positivity)]; exact_mod_cast (by omega : k ≤ 2 ^ 24))
      simpa using this
    · rw [hq]; linarith
  apply trunc_of _ _ h1
  have h2 := nearest_err (by norm_num) hr
  have hmq : (m : ℚ) ≤ 16777200 := by exact_mod_cast hnp
  have hm0 : (0 : ℚ) ≤ m := by positivity
  rw [abs_of_nonneg (by positivity : (0 : ℚ) ≤ (m : ℚ) / 100)] at h2
  have h3 : (m : ℚ) / 100 / 2 ^ 24 < 1 / 100 := by
    norm_num; linarith
  have h4 := (abs_le.1 (h2.trans h3.le)).1
  have h5 : rf ((m : ℚ) / 100) - (m : ℚ) / 100 < 1 / 100 := by
    have := neg_abs_le ((m : ℚ) / 100 - rf ((m : ℚ) / 100))
    linarith
  rw [hq] at h5 ⊢
  linarith

/-- C235 (partial): with an integer percentage and up to 167772 samples, the percentage of the samples, rounded down, is
used for training. Missing: larger numbers of samples, see `c235_all_violated`. -/
theorem c235_count_partial (rf rd : ℚ → ℚ) (hrf : ∀ x, Nearest 24 x (rf x)) (atof : String → ℚ) (rand : Nat → Nat)
    (fuel : Nat) (par : Par) (ncol : Nat) (resp feats : List (List ℚ)) (S : Setup) (p : Nat) (hp : p ≤ 100)
    (hpar : par.percent = p) (hn : resp.length ≤ 167772)
    (h : run rf rd atof rand fuel par ncol resp feats = .ok (some S)) :
    S.train.length = resp.length * p / 100 := by
  have h1 := train_length h
  rw [hpar, nTrain_exact rf hrf _ p hn hp] at h1
  exact_mod_cast h1

theorem nTrain_near (rf : ℚ → ℚ) (hrf : ∀ x, Nearest 24 x (rf x)) (n : Nat) (p : ℚ) (hn : n ≤ 2 ^ 22) (h0 : 0 ≤ p)
    (hp : p ≤ 100) :
    |(nTrain rf n p : ℚ) - n * p / 100| ≤ 1 + (n : ℚ) / 2 ^ 22 ∧ 0 ≤ nTrain rf n p ∧ nTrain rf n p ≤ n ∧
      (100 ≤ n * p → 1 ≤ nTrain rf n p) ∧ ((n : ℚ) * p < 99 → nTrain rf n p = 0) := by
  unfold nTrain
  rw [rf_nat rf hrf n (by omega)]
  have n0 : (0 : ℚ) ≤ n := by positivity
  have nq : (n : ℚ) ≤ 4194304 := by exact_mod_cast hn
  have np0 : 0 ≤ (n : ℚ) * p := mul_nonneg n0 h0
  have np1 : (n : ℚ) * p ≤ n * 100 := mul_le_mul_of_nonneg_left hp n0
  have r1 := hrf ((n : ℚ) * p)
  have e1 := nearest_err (by norm_num) r1
  have g0 : 0 ≤ rf ((n : ℚ) * p) := nearest_ge r1 ⟨0, 0, by norm_num, by simp⟩ np0
  have g1 : 100 ≤ (n : ℚ) * p → 100 ≤ rf ((n : ℚ) * p) := fun hh =>
    nearest_ge r1 ⟨100, 0, by norm_num, by norm_num⟩ hh
  have g2 : (n : ℚ) * p < 99 → rf ((n : ℚ) * p) ≤ 99 := fun hh =>
    nearest_le r1 ⟨99, 0, by norm_num, by norm_num⟩ hh.le
  generalize rf ((n : ℚ) * p) = a at *
  have r2 := hrf (a / 100)
  have e2 := nearest_err (by norm_num) r2
  have g3 : 0 ≤ rf (a / 100) := nearest_ge r2 ⟨0, 0, by norm_num, by simp⟩ (by simpa using div_nonneg g0 (by norm_num))
  have g4 : 100 ≤ a → 1 ≤ rf (a / 100) := fun hh =>
    nearest_ge r2 ⟨1, 0, by norm_num, by norm_num⟩ (by linarith)
  generalize rf (a / 100) = r at *
  rw [abs_of_nonneg np0] at e1
  rw [abs_of_nonneg (by positivity : 0 ≤ a / 100)] at e2
  obtain ⟨f1, f1'⟩ := abs_le.1 e1
  obtain ⟨f2, f2'⟩ := abs_le.1 e2
  norm_num at f1 f2 f1' f2' ⊢
  have ht := truncQ_eq r
  rw [if_pos g3] at ht
  have hl := Int.floor_le r
  have hu := Int.lt_floor_add_one r
  rw [ht]
  refine ⟨?_, Int.floor_nonneg.2 g3, ?_, ?_, ?_⟩
  · rw [abs_le]
    constructor <;> linarith
  · have : (⌊r⌋ : ℚ) < n + 1 := by linarith
    have : ⌊r⌋ < (n : Int) + 1 := by exact_mod_cast this
    omega
  · intro hh
    exact Int.le_floor.2 (by simpa using g4 (g1 hh))
  · intro hh
    rw [Int.floor_eq_iff]
    have := g2 hh
    constructor
    · simpa using g3
    · norm_num; linarith

/-- C235: with any percentage and up to four million samples, the number of training samples differs from the percentage
by at most one and a rounding error. -/
theorem c235_near (rf rd : ℚ → ℚ) (hrf : ∀ x, Nearest 24 x (rf x)) (atof : String → ℚ) (rand : Nat → Nat)
    (fuel : Nat) (par : Par) (ncol : Nat) (resp feats : List (List ℚ)) (S : Setup) (h0 : 0 ≤ par.percent)
    (hp : par.percent ≤ 100) (hn : resp.length ≤ 2 ^ 22)
    (h : run rf rd atof rand fuel par ncol resp feats = .ok (some S)) :
    |(S.train.length : ℚ) - resp.length * par.percent / 100| ≤ 1 + (resp.length : ℚ) / 2 ^ 22 := by
  have h1 := train_length h
  have h2 := (nTrain_near rf hrf resp.length par.percent hn h0 hp).1
  rw [← h1] at h2
  exact_mod_cast h2

theorem nTrain_full (rf : ℚ → ℚ) (hrf : ∀ x, Nearest 24 x (rf x)) (hte : rf 67108900 = 67108896) :
    nTrain rf 671089 100 = 671088 := by
  unfold nTrain
  rw [rf_nat rf hrf 671089 (by norm_num), show ((671089 : Nat) : ℚ) * 100 = 67108900 by norm_num, hte]
  have h := nearest_unique_of_ge (by norm_num) (hrf (67108896 / 100)) 10737423 (-4) (by norm_num)
    (by norm_num) (by rw [abs_lt]; norm_num)
  rw [h]
  exact trunc_of _ 671088 (by norm_num) (by norm_num)

/-- C235, violated: of 671089 samples, only 671088 are used for training when 100 % are requested (number of samples
times 100 is rounded to the even float below). -/
theorem c235_all_violated (rf rd : ℚ → ℚ) (hrf : ∀ x, Nearest 24 x (rf x)) (hte : rf 67108900 = 67108896)
    (atof : String → ℚ) (rand : Nat → Nat) (fuel : Nat) (par : Par) (ncol : Nat) (resp feats : List (List ℚ)) (S : Setup)
    (hp : par.percent = 100) (hn : resp.length = 671089)
    (h : run rf rd atof rand fuel par ncol resp feats = .ok (some S)) : S.train.length = 671088 := by
  have h1 := train_length h
  rw [hp, hn, nTrain_full rf hrf hte] at h1
  exact_mod_cast h1

/-- There is such a rounding. -/
example : ∃ rf : ℚ → ℚ, (∀ x, Nearest 24 x (rf x)) ∧ rf 67108900 = 67108896 := by
  obtain ⟨g, hg⟩ := exists_round 24 (by norm_num)
  refine ⟨fun x => if x = 67108900 then 67108896 else g x, ?_, by simp⟩
  intro x
  dsimp only
  split
  · rename_i hx
    subst hx
    refine ⟨⟨8388612, 3, by norm_num, by norm_num⟩, ?_⟩
    intro f hf
    norm_num
    by_cases hlt : (67108864 : ℚ) ≤ |f|
    · obtain ⟨k, rfl⟩ := rep_multiple (by norm_num) hf (e := 3) (by norm_num; linarith)
      rw [show (67108900 : ℚ) - k * 2 ^ (3 : ℤ) = ((67108900 - 8 * k : Int) : ℚ) by push_cast; norm_num; ring]
      have : (4 : Int) ≤ |67108900 - 8 * k| := by
        rw [le_abs]; omega
      exact_mod_cast this
    · push Not at hlt
      have := le_abs_self f
      rw [le_abs]; left; linarith
  · exact hg x

/-! ## The program runs -/

/-- A table of numbers with `ncol` columns and responses that fit into an integer. -/
structure Valid (par : Par) (ncol : Nat) (resp feats : List (List ℚ)) : Prop where
  rows : 1 ≤ resp.length
  cols : ∀ row ∈ resp, row.length = ncol
  var : 1 ≤ par.var ∧ par.var ≤ ncol
  same : feats.length = resp.length
  range : ∀ row ∈ resp, ∀ x ∈ row, |x| ≤ 1000000000

theorem column_ok (var ncol : Nat) (resp : List (List ℚ)) (h1 : 1 ≤ var) (h2 : var ≤ ncol)
    (hc : ∀ row ∈ resp, row.length = ncol) : ∃ vals, column var resp = .ok vals ∧ ∀ x ∈ vals, ∃ row ∈ resp, x ∈ row := by
  induction resp with
  | nil => exact ⟨[], rfl, by simp⟩
  | cons a t ih =>
    obtain ⟨vs, hv, hm⟩ := ih (fun r hr => hc r (List.mem_cons_of_mem _ hr))
    have hl := hc a List.mem_cons_self
    have hg : a[var - 1]? = some (a[var - 1]'(by omega)) := List.getElem?_eq_getElem (by omega)
    refine ⟨a[var - 1]'(by omega) :: vs, ?_, ?_⟩
    · rw [column, hg]; simp only [hv, Out.bind]
    · intro x hx
      rcases List.mem_cons.1 hx with rfl | hx
      · exact ⟨a, List.mem_cons_self, List.getElem_mem _⟩
      · obtain ⟨r, hr, hxr⟩ := hm x hx
        exact ⟨r, List.mem_cons_of_mem _ hr, hxr⟩

theorem classes_ok (vals : List ℚ) (h : ∀ x ∈ vals, |x| ≤ 1000000000) :
    ∃ cls, classes vals = .ok cls ∧ ∀ c ∈ cls, |c| ≤ 1000000000 := by
  induction vals with
  | nil => exact ⟨[], rfl, by simp⟩
  | cons a t ih =>
    obtain ⟨cs, hc, hm⟩ := ih (fun x hx => h x (List.mem_cons_of_mem _ hx))
    have hb : |truncQ a| ≤ 1000000000 := by
      have := (truncQ_abs a).1.trans (h a List.mem_cons_self)
      exact_mod_cast this
    refine ⟨truncQ a :: cs, ?_, ?_⟩
    · have := abs_le.1 hb
      rw [classes, classOf, if_pos (by omega)]
      simp only [hc, Out.bind]
    · intro c hc'
      rcases List.mem_cons.1 hc' with rfl | hc'
      · exact hb
      · exact hm c hc'

theorem run_valid {par : Par} {ncol : Nat} {resp feats : List (List ℚ)} (hv : Valid par ncol resp feats)
    (rf rd : ℚ → ℚ) (atof : String → ℚ) (rand : Nat → Nat) (nt : Nat)
    (hnt : nTrain rf resp.length par.percent = nt) (hle : nt ≤ resp.length) :
    ∃ vals cls, vals.length = resp.length ∧ cls.length = vals.length ∧ (∀ c ∈ cls, |c| ≤ 1000000000) ∧
      column par.var resp = .ok vals ∧ classes vals = .ok cls ∧
      ∀ fuel, run rf rd atof rand fuel par ncol resp feats = split rf rd atof rand fuel par feats vals cls nt := by
  obtain ⟨vals, h1, h2⟩ := column_ok par.var ncol resp hv.var.1 hv.var.2 hv.cols
  obtain ⟨cls, h3, h4⟩ := classes_ok vals (fun x hx => by
    obtain ⟨row, hr, hx'⟩ := h2 x hx
    exact hv.range row hr x hx')
  obtain ⟨l1, _⟩ := column_get _ _ _ h1
  obtain ⟨l2, _⟩ := classes_get _ _ h3
  refine ⟨vals, cls, l1, l2, h4, h1, h3, ?_⟩
  intro fuel
  have hrows := hv.rows
  have hvar := hv.var.2
  unfold run
  rw [if_neg (by omega), if_neg (by omega), h1]
  simp only [Out.bind]
  rw [h3]
  simp only
  rw [if_neg (by rw [hv.same]; simp), hnt, if_neg (by omega)]
  simp

/-- Every sample comes up again and again in the random numbers. -/
def Fair (rand : Nat → Nat) (n : Nat) : Prop := ∀ r < n, ∀ i, ∃ j, i ≤ j ∧ rand j % n = r

theorem draw_more (rand : Nat → Nat) (used : List Bool) (fuel i d : Nat) (r : Nat × Nat)
    (h : draw rand used fuel i = some r) : draw rand used (fuel + d) i = some r := by
  induction fuel generalizing i with
  | zero => cases h
  | succ f ih =>
    rw [show f + 1 + d = (f + d) + 1 by omega]
    rw [draw] at h ⊢
    split at h
    · rename_i hc
      rw [if_pos hc]; exact ih _ h
    · rename_i hc
      rw [if_neg hc]; exact h

theorem draw_ends (rand : Nat → Nat) (used : List Bool) (s : Nat) (hs : s < used.length) (hf : used.getD s false = false)
    (d i : Nat) (hj : rand (i + d) % used.length = s) : ∃ r, draw rand used (d + 1) i = some r := by
  induction d generalizing i with
  | zero =>
    rw [draw, if_neg (by rw [Nat.add_zero] at hj; rw [hj, hf]; decide)]
    exact ⟨_, rfl⟩
  | succ d ih =>
    rw [draw]
    split
    · exact ih (i + 1) (by rw [← hj]; congr 2; omega)
    · exact ⟨_, rfl⟩

theorem unused (l : List Bool) (h : l.count true < l.length) : ∃ s, s < l.length ∧ l.getD s false = false := by
  induction l with
  | nil => simp at h
  | cons b t ih =>
    cases b with
    | false => exact ⟨0, by simp, rfl⟩
    | true =>
      rw [List.count_cons_self, List.length_cons] at h
      obtain ⟨s, h1, h2⟩ := ih (by omega)
      exact ⟨s + 1, by simpa using h1, by simpa using h2⟩

theorem marks_ends (rand : Nat → Nat) (ks : List Nat) (used : List Bool) (i : Nat) (hr : Fair rand used.length)
    (h : used.count true + ks.length ≤ used.length) :
    ∃ f0, ∀ fuel ≥ f0, ∃ m, marks rand true fuel ks (used, i) = .ok (some m) := by
  induction ks generalizing used i with
  | nil => exact ⟨0, fun fuel _ => ⟨_, rfl⟩⟩
  | cons k ks ih =>
    rw [List.length_cons] at h
    obtain ⟨s, h1, h2⟩ := unused used (by omega)
    obtain ⟨j, hj, hjr⟩ := hr s h1 i
    obtain ⟨r, hd⟩ := draw_ends rand used s h1 h2 (j - i) i (by rw [show i + (j - i) = j by omega]; exact hjr)
    obtain ⟨h3, h4⟩ := draw_spec rand used (by omega) _ _ _ hd
    obtain ⟨f1, hf1⟩ := ih (used.set r.1 true) r.2 (by rw [List.length_set]; exact hr)
      (by rw [count_set _ _ h3 h4, List.length_set]; omega)
    refine ⟨max (j - i + 1) f1, ?_⟩
    intro fuel hfuel
    have e := draw_more rand used (j - i + 1) i (fuel - (j - i + 1)) r hd
    rw [show j - i + 1 + (fuel - (j - i + 1)) = fuel by omega] at e
    rw [marks, if_pos rfl, e]
    exact hf1 fuel (by omega)

theorem count_both (l : List Bool) : l.count true + l.count false = l.length := by
  induction l with
  | nil => rfl
  | cons b t ih => cases b <;> simp <;> omega

theorem split_ok (rf rd : ℚ → ℚ) (atof : String → ℚ) (rand : Nat → Nat) (fuel : Nat) (par : Par)
    (feats : List (List ℚ)) (vals : List ℚ) (cls : List Int) (nt : Nat) (hle : nt ≤ vals.length) (h1 : 1 ≤ nt)
    (hfl : feats.length = vals.length) (hcl : cls.length = vals.length) (m : List Bool)
    (hm : marks rand par.random fuel (List.range nt) (List.replicate vals.length false, 0) = .ok (some m))
    (pr : Option (List ℚ)) (hp : priors rf atof par cls = .ok pr) :
    ∃ S, split rf rd atof rand fuel par feats vals cls nt = .ok (some S) ∧ S.priors = pr := by
  obtain ⟨l1, l2, _⟩ := marks_length (by omega) hle hm
  have hsl := samples_length rf rd feats vals cls hfl hcl
  have hfst : (m.zip (samples rf rd feats vals cls)).map Prod.fst = m := List.map_fst_zip (by omega)
  have hcf : m.count false = vals.length - nt := by
    have := count_both m
    omega
  obtain ⟨tv, htv⟩ := distribute_ok nt (vals.length - nt) (m.zip (samples rf rd feats vals cls)) [] []
    (by rw [hfst]; simp; omega) (by rw [hfst]; simp; omega)
  refine ⟨⟨tv.1, tv.2, pr⟩, ?_, rfl⟩
  unfold split
  rw [hm]
  simp only [Out.bind]
  rw [htv]
  simp only
  rw [hp]
  simp only
  rw [if_neg (by omega)]

/-- C235: with tables of up to four million samples and at least one training sample, the split succeeds as soon as the
class weights do; with a random split if the random numbers do not avoid a sample for ever. -/
theorem c235_runs (rf rd : ℚ → ℚ) (hrf : ∀ x, Nearest 24 x (rf x)) (atof : String → ℚ) (rand : Nat → Nat)
    (par : Par) (ncol : Nat) (resp feats : List (List ℚ)) (hv : Valid par ncol resp feats) (hn : resp.length ≤ 2 ^ 22)
    (hp : par.percent ≤ 100) (h100 : 100 ≤ resp.length * par.percent)
    (hw : par.weights = ["EQUALIZED"]) (hrand : par.random = true → Fair rand resp.length) :
    ∃ fuel S, run rf rd atof rand fuel par ncol resp feats = .ok (some S) := by
  have hrows := hv.rows
  have h0 : 0 ≤ par.percent := by
    by_contra hc
    push Not at hc
    have : (0 : ℚ) ≤ resp.length := by positivity
    nlinarith
  obtain ⟨_, g1, g2, g3, _⟩ := nTrain_near rf hrf resp.length par.percent hn h0 hp
  have g3 := g3 h100
  obtain ⟨nt, hnt⟩ : ∃ nt : Nat, nTrain rf resp.length par.percent = nt := ⟨_, (Int.toNat_of_nonneg g1).symm⟩
  rw [hnt] at g2 g3
  obtain ⟨vals, cls, l1, l2, _, _, _, hrun⟩ := run_valid hv rf rd atof rand nt hnt (by omega)
  have hpr : priors rf atof par cls = .ok none := by
    unfold priors
    rw [if_pos hw]
    split <;> rfl
  have key : ∃ fuel m, marks rand par.random fuel (List.range nt) (List.replicate vals.length false, 0) = .ok (some m) := by
    cases hr : par.random with
    | true =>
      obtain ⟨f0, hf⟩ := marks_ends rand (List.range nt) (List.replicate vals.length false) 0
        (by rw [List.length_replicate, l1]; exact hrand hr) (by simp [List.count_replicate]; omega)
      exact ⟨f0, hf f0 (le_refl _)⟩
    | false =>
      have := marks_first rand 0 nt vals.length 0 0 (by omega)
      rw [← List.range_eq_range'] at this
      exact ⟨0, _, by simpa using this⟩
  obtain ⟨fuel, m, hm⟩ := key
  obtain ⟨S, hS, _⟩ := split_ok rf rd atof rand fuel par feats vals cls nt (by omega) (by omega)
    (by rw [hv.same]; omega) l2 m hm none hpr
  exact ⟨fuel, S, by rw [hrun]; exact hS⟩

/-- C235, violated: with too few samples for the percentage, there is no training sample, and the program reads outside
of an empty array instead of reporting it. -/
theorem c235_empty_violated (rf rd : ℚ → ℚ) (hrf : ∀ x, Nearest 24 x (rf x)) (atof : String → ℚ) (rand : Nat → Nat)
    (fuel : Nat) (par : Par) (ncol : Nat) (resp feats : List (List ℚ)) (hv : Valid par ncol resp feats)
    (hn : resp.length ≤ 2 ^ 22) (h0 : 0 ≤ par.percent) (hp : par.percent ≤ 100)
    (h99 : (resp.length : ℚ) * par.percent < 99) (hw : par.weights = ["EQUALIZED"]) :
    run rf rd atof rand fuel par ncol resp feats = .ub := by
  have hrows := hv.rows
  have h := (nTrain_near rf hrf resp.length par.percent hn h0 hp).2.2.2.2 h99
  obtain ⟨vals, cls, l1, l2, _, _, _, hrun⟩ := run_valid hv rf rd atof rand 0 (by exact_mod_cast h) (by omega)
  have hpr : priors rf atof par cls = .ok none := by
    unfold priors
    rw [if_pos hw]
    split <;> rfl
  have hsl := samples_length rf rd feats vals cls (by rw [hv.same]; omega) l2
  have hfst : ((List.replicate vals.length false).zip (samples rf rd feats vals cls)).map Prod.fst =
      List.replicate vals.length false := List.map_fst_zip (by simp; omega)
  obtain ⟨tv, htv⟩ := distribute_ok 0 (vals.length - 0)
    ((List.replicate vals.length false).zip (samples rf rd feats vals cls)) [] []
    (by rw [hfst]; simp [List.count_replicate]) (by rw [hfst]; simp)
  rw [hrun]
  unfold split
  rw [List.range_zero, marks]
  simp only [Out.bind]
  rw [htv]
  simp only
  rw [hpr]
  simp only
  rw [if_pos trivial]

/-- A table with four samples: half of them are used for training. -/
def exPar (p : ℚ) (random : Bool) : Par := ⟨2, p, random, ["EQUALIZED"], .rfc⟩

def exResp : List (List ℚ) := [[7, 1], [7, 2], [7, 1], [7, 3]]

def exFeat : List (List ℚ) := [[100, 200], [300, 400], [500, 600], [700, 800]]

theorem exValid (p : ℚ) (random : Bool) : Valid (exPar p random) 2 exResp exFeat := by
  refine ⟨by decide, ?_, ⟨Nat.le_succ 1, le_refl 2⟩, rfl, ?_⟩
  · simp [exResp]
  · intro row hr x hx
    simp [exResp] at hr
    rcases hr with rfl | rfl | rfl | rfl <;> simp at hx <;> rcases hx with rfl | rfl <;> norm_num

example : (100 : ℚ) ≤ exResp.length * (exPar 50 true).percent ∧ Fair id exResp.length := by
  refine ⟨by norm_num [exResp, exPar], ?_⟩
  intro r hr i
  refine ⟨exResp.length * i + r, by simp [exResp]; omega, ?_⟩
  simp only [id]
  rw [Nat.mul_add_mod, Nat.mod_eq_of_lt hr]

example : (exResp.length : ℚ) * (exPar 20 true).percent < 99 := by norm_num [exResp, exPar]

/-- C235: a response becomes the whole number next to it towards 0 exactly if this number fits into an `int`. -/
theorem c235_class (x : ℚ) :
    ((-2147483649 < x ∧ x < 2147483648) → ∃ c : Int, classOf x = .ok c ∧ |(c : ℚ)| ≤ |x| ∧ |x| < |(c : ℚ)| + 1 ∧
      0 ≤ (c : ℚ) * x) ∧
    (¬ (-2147483649 < x ∧ x < 2147483648) → classOf x = .ub) := by
  have key : (-2147483648 ≤ truncQ x ∧ truncQ x ≤ 2147483647) ↔ (-2147483649 < x ∧ x < 2147483648) := by
    rw [Index.truncQ_eq]
    split
    · rename_i h
      have h0 := Int.floor_nonneg.2 h
      constructor
      · rintro ⟨-, h2⟩
        refine ⟨by linarith, ?_⟩
        have : ⌊x⌋ < 2147483648 := by omega
        exact_mod_cast Int.floor_lt.1 this
      · rintro ⟨-, h2⟩
        have : ⌊x⌋ < 2147483648 := Int.floor_lt.2 (by exact_mod_cast h2)
        omega
    · rename_i h
      push Not at h
      have h0 : ⌈x⌉ ≤ 0 := Int.ceil_le.2 (by exact_mod_cast h.le)
      constructor
      · rintro ⟨h1, -⟩
        refine ⟨?_, by linarith⟩
        have : -2147483649 < ⌈x⌉ := by omega
        exact_mod_cast Int.lt_ceil.1 this
      · rintro ⟨h1, -⟩
        have : -2147483649 < ⌈x⌉ := Int.lt_ceil.2 (by exact_mod_cast h1)
        omega
  unfold classOf
  refine ⟨fun h => ⟨truncQ x, if_pos (key.2 h), ?_⟩, fun h => if_neg (fun h2 => h (key.1 h2))⟩
  exact truncQ_abs x

end Verif.Train
