import Verif.Side.Model
import Verif.Fetch.Props
import Mathlib.Tactic.Linarith
import Mathlib.Tactic.Ring
import Mathlib.Tactic.FieldSimp
import Mathlib.Tactic.IntervalCases
import Mathlib.Algebra.BigOperators.Group.List.Basic

/-! Properties C311 to C313. -/

namespace Verif.Side

open Verif.Str (Out)
open Verif.Fetch (Transfer Text fetchMeta fetch fetch_stop fetch_step fetch_bound)

/-! ## C311: days without data -/

/-- Days on which Terra delivered no data. -/
def TerraOut (y m d : Int) : Prop :=
  (y = 2000 ∧ m = 8 ∧ 6 ≤ d ∧ d ≤ 17) ∨
  (y = 2001 ∧ m = 6 ∧ 16 ≤ d ∧ d ≤ 30) ∨ (y = 2001 ∧ m = 7 ∧ 1 ≤ d ∧ d ≤ 2) ∨
  (y = 2002 ∧ m = 3 ∧ 20 ≤ d ∧ d ≤ 27) ∨ (y = 2002 ∧ m = 4 ∧ d = 15) ∨
  (y = 2003 ∧ m = 12 ∧ 17 ≤ d ∧ d ≤ 23) ∨ (y = 2008 ∧ m = 12 ∧ 21 ≤ d ∧ d ≤ 22)

/-- Days on which Aqua delivered no data. -/
def AquaOut (y m d : Int) : Prop :=
  (y = 2002 ∧ m = 7 ∧ 30 ≤ d ∧ d ≤ 31) ∨ (y = 2002 ∧ m = 8 ∧ 1 ≤ d ∧ d ≤ 7) ∨ (y = 2002 ∧ m = 9 ∧ d = 13)

/-- The day is before 3 July 2002. -/
def BeforeAqua (y m d : Int) : Prop := y < 2002 ∨ (y = 2002 ∧ (m < 7 ∨ (m = 7 ∧ d < 3)))

theorem listed_cons (y0 m0 d0 : Int) (ys ms ds : List Int) (y m d : Int) :
    listed (y0 :: ys) (m0 :: ms) (d0 :: ds) y m d = true ↔
      ((y = 2000 + y0 ∧ m = m0 ∧ d = d0) ∨ listed ys ms ds y m d = true) := by
  simp [listed, and_assoc]

theorem listed_nil (y m d : Int) : listed [] [] [] y m d = true ↔ False := by simp [listed]

theorem failureTerra_iff (y m d : Int) : failureTerra y m d = true ↔ TerraOut y m d := by
  constructor
  · intro h
    unfold failureTerra terraY terraM terraD at h
    simp only [listed_cons, listed_nil] at h
    unfold TerraOut
    rcases h with h | h | h | h | h | h | h | h | h | h | h | h | h | h | h | h | h | h | h | h | h | h | h | h | h | h | h | h |
      h | h | h | h | h | h | h | h | h | h | h | h | h | h | h | h | h | h | h | h
    all_goals first | exact h.elim | (obtain ⟨rfl, rfl, rfl⟩ := h; decide)
  · rintro (⟨rfl, rfl, h, k⟩ | ⟨rfl, rfl, h, k⟩ | ⟨rfl, rfl, h, k⟩ | ⟨rfl, rfl, h, k⟩ | ⟨rfl, rfl, rfl⟩ | ⟨rfl, rfl, h, k⟩ |
      ⟨rfl, rfl, h, k⟩)
    all_goals first | decide | (interval_cases d <;> decide)

theorem failureAqua_iff (y m d : Int) : failureAqua y m d = true ↔ AquaOut y m d := by
  constructor
  · intro h
    unfold failureAqua aquaY aquaM aquaD at h
    simp only [listed_cons, listed_nil] at h
    unfold AquaOut
    rcases h with h | h | h | h | h | h | h | h | h | h | h
    all_goals first | exact h.elim | (obtain ⟨rfl, rfl, rfl⟩ := h; decide)
  · rintro (⟨rfl, rfl, h, k⟩ | ⟨rfl, rfl, h, k⟩ | ⟨rfl, rfl, rfl⟩)
    all_goals first | decide | (interval_cases d <;> decide)

theorem meta_zero (server : Nat → Transfer) (outage : Bool) (file : Option Text) :
    (fetchMeta server outage file).2 = 0 ↔ (outage = true ∨ file ≠ none) := by
  unfold fetchMeta
  cases outage with
  | true => simp [fetch_stop server 99 0 file (by omega)]
  | false =>
    cases file with
    | some c => simp [fetch_stop server 0 0 (some c) (by simp)]
    | none =>
      have h : fetch server 0 0 none = _ := fetch_step server 0 0 (by omega)
      have := (fetch_bound server ((if (server 0).code = 78 then 99 else 0) + 1) (0 + 1)
        (if (server 0).blocks = [] then none else some (server 0).blocks.flatten)).2
      simp only [Bool.false_eq_true, if_false, ne_eq, not_true, or_self, iff_false]
      rw [h]; omega

/-- C311: the list of granules of Terra is asked for unless the day is one of the outages or the list is there already. -/
theorem c311_terra (terra aqua : Nat → Transfer) (y m d : Int) (fileT fileA : Option Text) :
    (granuleLists terra aqua y m d fileT fileA).1.2 = 0 ↔ (TerraOut y m d ∨ fileT ≠ none) := by
  show (fetchMeta terra (failureTerra y m d) fileT).2 = 0 ↔ _
  rw [meta_zero, failureTerra_iff]

/-- C311: the list of granules of Aqua is asked for unless the day is before the start of its data, one of the outages, or
the list is there already. -/
theorem c311_aqua (terra aqua : Nat → Transfer) (y m d : Int) (fileT fileA : Option Text)
    (hm : 1 ≤ m ∧ m ≤ 12) (hd : 1 ≤ d ∧ d ≤ 31) :
    (granuleLists terra aqua y m d fileT fileA).2.2 = 0 ↔ (BeforeAqua y m d ∨ AquaOut y m d ∨ fileA ≠ none) := by
  show (if aquaFlies y m d then fetchMeta aqua (failureAqua y m d) fileA else (fileA, 0)).2 = 0 ↔ _
  have hb : aquaFlies y m d = true ↔ ¬ BeforeAqua y m d := by
    unfold aquaFlies BeforeAqua
    rw [decide_eq_true_iff]; omega
  by_cases h : BeforeAqua y m d
  · rw [if_neg (fun hc => hb.1 hc h)]; simp [h]
  · rw [if_pos (hb.2 h), meta_zero, failureAqua_iff]; simp [h]

/-- C311: on a day of an outage or before the start of the data, whatever the servers deliver, the local lists are those
there before. -/
theorem c311_untouched (terra aqua : Nat → Transfer) (y m d : Int) (fileT fileA : Option Text) (hm : 1 ≤ m ∧ m ≤ 12)
    (hd : 1 ≤ d ∧ d ≤ 31) :
    (TerraOut y m d → (granuleLists terra aqua y m d fileT fileA).1.1 = fileT) ∧
    (BeforeAqua y m d ∨ AquaOut y m d → (granuleLists terra aqua y m d fileT fileA).2.1 = fileA) := by
  constructor
  · intro h
    show (fetchMeta terra (failureTerra y m d) fileT).1 = _
    rw [(failureTerra_iff y m d).2 h]
    unfold fetchMeta
    rw [if_pos rfl, fetch_stop _ _ _ _ (by omega)]
  · intro h
    show (if aquaFlies y m d then fetchMeta aqua (failureAqua y m d) fileA else (fileA, 0)).1 = _
    by_cases hf : aquaFlies y m d = true
    · rw [if_pos hf]
      rcases h with h | h
      · exfalso
        unfold aquaFlies at hf
        unfold BeforeAqua at h
        rw [decide_eq_true_iff] at hf; omega
      · rw [(failureAqua_iff y m d).2 h]
        unfold fetchMeta
        rw [if_pos rfl, fetch_stop _ _ _ _ (by omega)]
    · rw [if_neg hf]

/-- The cases occur. -/
example : TerraOut 2001 6 30 ∧ AquaOut 2002 9 13 ∧ BeforeAqua 2002 7 2 ∧ ¬ BeforeAqua 2002 7 3 ∧ ¬ TerraOut 2001 7 3 := by
  unfold TerraOut AquaOut BeforeAqua; omega

/-! ## C312: endmember file -/

theorem value_fin (q : ℚ) : value (.fin q) = if 0 ≤ q ∧ q ≤ 10000 then some (.fin (q / 10000)) else none := by
  show (if (decide (q / 10000 < 0) || decide (q / 10000 > 1)) = true then none else some (Num.fin (q / 10000))) = _
  by_cases h0 : 0 ≤ q
  · by_cases h1 : q ≤ 10000
    · have a : ¬ q / 10000 < 0 := not_lt.2 (by positivity)
      have b : ¬ q / 10000 > 1 := not_lt.2 (by rw [div_le_one (by norm_num)]; exact h1)
      rw [if_neg (by rw [decide_eq_false a, decide_eq_false b]; decide), if_pos ⟨h0, h1⟩]
    · have b : q / 10000 > 1 := by rw [gt_iff_lt, one_lt_div (by norm_num)]; exact not_le.1 h1
      rw [if_pos (by rw [decide_eq_true b, Bool.or_true]), if_neg (fun h => h1 h.2)]
  · have a : q / 10000 < 0 := div_neg_of_neg_of_pos (not_le.1 h0) (by norm_num)
    rw [if_pos (by rw [decide_eq_true a, Bool.true_or]), if_neg (fun h => h0 h.1)]

theorem mapM_all {α β : Type} {f : α → Option β} {g : α → β} (l : List α) (h : ∀ x ∈ l, f x = some (g x)) :
    l.mapM f = some (l.map g) := by
  induction l with
  | nil => rfl
  | cons x l ih =>
    rw [List.mapM_cons, h x List.mem_cons_self, ih (fun y hy => h y (List.mem_cons_of_mem _ hy))]; rfl

theorem mapM_fail {α β : Type} {f : α → Option β} (l : List α) (h : ∃ x ∈ l, f x = none) : l.mapM f = none := by
  induction l with
  | nil => obtain ⟨_, hx, _⟩ := h; cases hx
  | cons y l ih =>
    rw [List.mapM_cons]
    cases hy : f y with
    | none => rfl
    | some z =>
      obtain ⟨x, hx, hn⟩ := h
      rcases List.mem_cons.1 hx with rfl | hx
      · rw [hn] at hy; cases hy
      · rw [ih ⟨x, hx, hn⟩]; rfl

/-- C312, for files in which each field is a finite number: the file is accepted if and only if all values are in [0, 10000]
and there is one row for each band, and then the endmembers are the values divided by 10000. Missing: fields that are
NaN, see `c312_nan_violated`. -/
theorem c312_accepted_partial (table : List (List ℚ)) (bands : Nat) (out : List (List Num)) :
    readEndmember (table.map fun row => row.map Num.fin) bands = some out ↔
      ((∀ row ∈ table, ∀ q ∈ row, 0 ≤ q ∧ q ≤ 10000) ∧ table.length = bands ∧
        out = table.map fun row => row.map fun q => Num.fin (q / 10000)) := by
  unfold readEndmember
  by_cases h : ∀ row ∈ table, ∀ q ∈ row, 0 ≤ q ∧ q ≤ 10000
  · have e : (table.map fun row => row.map Num.fin).mapM (fun row => row.mapM value) =
        some ((table.map fun row => row.map Num.fin).map fun row => row.map unscale) := by
      refine mapM_all _ ?_
      intro row hr
      obtain ⟨r, hrt, rfl⟩ := List.mem_map.1 hr
      refine mapM_all _ ?_
      intro x hx
      obtain ⟨q, hq, rfl⟩ := List.mem_map.1 hx
      rw [value_fin, if_pos (h r hrt q hq)]; rfl
    rw [e]
    have e2 : ((table.map fun row => row.map Num.fin).map fun row => row.map unscale) =
        table.map fun row => row.map fun q => Num.fin (q / 10000) := by
      rw [List.map_map]
      refine List.map_congr_left fun r _ => ?_
      show (r.map Num.fin).map unscale = _
      rw [List.map_map]; rfl
    rw [e2]
    dsimp only
    by_cases hl : table.length = bands
    · rw [if_neg (by rw [List.length_map]; exact fun hc => hc hl)]
      constructor
      · intro ho; exact ⟨h, hl, (Option.some.inj ho).symm⟩
      · rintro ⟨_, _, rfl⟩; rfl
    · rw [if_pos (by rw [List.length_map]; exact hl)]
      constructor
      · intro ho; cases ho
      · rintro ⟨_, hc, _⟩; exact absurd hc hl
  · have e : (table.map fun row => row.map Num.fin).mapM (fun row => row.mapM value) = none := by
      push Not at h
      obtain ⟨r, hr, q, hq, hv⟩ := h
      refine mapM_fail _ ⟨r.map Num.fin, List.mem_map.2 ⟨r, hr, rfl⟩, mapM_fail _ ⟨.fin q, List.mem_map.2 ⟨q, hq, rfl⟩, ?_⟩⟩
      rw [value_fin, if_neg (fun hc => absurd (hv hc.1) (not_lt.2 hc.2))]
    rw [e]
    constructor
    · intro ho; cases ho
    · rintro ⟨hc, _⟩; exact absurd hc h

/-- C312: a file with a value below 0 or above 10000, infinities included, is rejected, whatever else is in it. -/
theorem c312_rejected (table : List (List Num)) (bands : Nat) (row : List Num) (x : Num) (hr : row ∈ table) (hx : x ∈ row)
    (h : (∃ q, x = .fin q ∧ (q < 0 ∨ 10000 < q)) ∨ ∃ s, x = .inf s) : readEndmember table bands = none := by
  have e : table.mapM (fun row => row.mapM value) = none := by
    refine mapM_fail _ ⟨row, hr, mapM_fail _ ⟨x, hx, ?_⟩⟩
    rcases h with ⟨q, rfl, hq⟩ | ⟨s, rfl⟩
    · rw [value_fin, if_neg]
      rintro ⟨h0, h1⟩
      rcases hq with hq | hq
      · exact absurd h0 (not_le.2 hq)
      · exact absurd h1 (not_le.2 hq)
    · cases s <;> rfl
  unfold readEndmember
  rw [e]

/-- C312, violated: a field with the text `nan` is no value in [0, 10000], but passes both comparisons: if all other values
are in the range and the number of rows is right, the file is accepted, and the endmember has no value in this band. -/
theorem c312_nan_violated (table : List (List Num)) (bands : Nat) (hl : table.length = bands)
    (h : ∀ row ∈ table, ∀ x ∈ row, x = .nan ∨ ∃ q : ℚ, x = .fin q ∧ 0 ≤ q ∧ q ≤ 10000) (row : List Num) (hr : row ∈ table)
    (hn : Num.nan ∈ row) :
    ∃ out, readEndmember table bands = some out ∧ ∃ r ∈ out, Num.nan ∈ r := by
  have e : table.mapM (fun row => row.mapM value) = some (table.map fun row => row.map unscale) := by
    refine mapM_all _ fun r hr => mapM_all _ fun x hx => ?_
    rcases h r hr x hx with rfl | ⟨q, rfl, h0, h1⟩
    · rfl
    · rw [value_fin, if_pos ⟨h0, h1⟩]; rfl
  refine ⟨table.map fun row => row.map unscale, ?_, row.map unscale, List.mem_map.2 ⟨row, hr, rfl⟩,
    List.mem_map.2 ⟨.nan, hn, rfl⟩⟩
  unfold readEndmember
  rw [e]
  dsimp only
  rw [if_neg (by rw [List.length_map]; exact fun hc => hc hl)]

/-- Files of each kind. -/
example : readEndmember [[.fin 320, .fin 0], [.fin 10000, .fin 50]] 2 =
      some [[.fin (320 / 10000), .fin (0 / 10000)], [.fin (10000 / 10000), .fin (50 / 10000)]] ∧
    readEndmember [[.fin 320], [.nan]] 2 = some [[.fin (320 / 10000)], [.nan]] :=
  ⟨(c312_accepted_partial [[320, 0], [10000, 50]] 2 _).2 ⟨by norm_num, rfl, rfl⟩, by decide +kernel⟩

/-! ## C313: data of the fit of the AOD spectrum -/

/-- The chosen bands, in order. -/
def chosen (sel : Nat → Bool) (bs : List Nat) : List Nat := bs.filter sel

theorem count_eq (sel : Nat → Bool) (nb : Nat) : countBands sel nb = (chosen sel (List.range nb)).length := by
  have key : ∀ (bs : List Nat) (k : Nat), bs.foldl (fun k b => if sel b then k + 1 else k) k = k + (chosen sel bs).length := by
    intro bs
    induction bs with
    | nil => intro k; rfl
    | cons b bs ih =>
      intro k
      rw [List.foldl_cons, ih]
      unfold chosen
      cases hb : sel b with
      | true => rw [List.filter_cons_of_pos hb, if_pos rfl, List.length_cons]; omega
      | false => rw [List.filter_cons_of_neg (by simp [hb])]; rfl
  unfold countBands
  rw [key]; omega

/-- The values of bands, in pairs. -/
def flat (lwvl logaod : Nat → ℚ) : List Nat → List ℚ
  | [] => []
  | b :: bs => lwvl b :: logaod b :: flat lwvl logaod bs

theorem packAll_eq (sel : Nat → Bool) (lwvl logaod : Nat → ℚ) (bs : List Nat) (pre : List ℚ) :
    ∃ n, packAll sel lwvl logaod bs (pre ++ List.replicate ((chosen sel bs).length * 2) 0, pre.length) =
      .ok (pre ++ flat lwvl logaod (chosen sel bs), n) := by
  induction bs generalizing pre with
  | nil => exact ⟨pre.length, rfl⟩
  | cons b bs ih =>
    rw [packAll, packBand]
    cases hb : sel b with
    | false =>
      have : chosen sel (b :: bs) = chosen sel bs := List.filter_cons_of_neg (by simp [hb])
      rw [this]
      exact ih pre
    | true =>
      have : chosen sel (b :: bs) = b :: chosen sel bs := List.filter_cons_of_pos hb
      rw [this, List.length_cons, show ((chosen sel bs).length + 1) * 2 = (chosen sel bs).length * 2 + 2 from by ring,
        List.replicate_succ, List.replicate_succ]
      obtain ⟨n, hn⟩ := ih (pre ++ [lwvl b, logaod b])
      refine ⟨n, ?_⟩
      have p1 : put (pre ++ (0 : ℚ) :: 0 :: List.replicate ((chosen sel bs).length * 2) 0) pre.length (lwvl b) =
          .ok (pre ++ lwvl b :: 0 :: List.replicate ((chosen sel bs).length * 2) 0) := by
        unfold put
        rw [if_pos (by simp only [List.length_append, List.length_cons]; omega), List.set_append_right _ _ (le_refl _)]
        simp
      have p2 : put (pre ++ lwvl b :: 0 :: List.replicate ((chosen sel bs).length * 2) 0) (pre.length + 1) (logaod b) =
          .ok (pre ++ lwvl b :: logaod b :: List.replicate ((chosen sel bs).length * 2) 0) := by
        unfold put
        rw [if_pos (by simp only [List.length_append, List.length_cons]; omega), List.set_append_right _ _ (by omega)]
        simp
      have hn' : packAll sel lwvl logaod bs
          (pre ++ lwvl b :: logaod b :: List.replicate ((chosen sel bs).length * 2) 0, pre.length + 2) =
          .ok (pre ++ flat lwvl logaod (b :: chosen sel bs), n) := by
        have := hn
        simpa [flat] using this
      rw [if_neg (by simp)]
      dsimp only
      rw [p1]
      show ((put (pre ++ lwvl b :: 0 :: List.replicate ((chosen sel bs).length * 2) 0) (pre.length + 1) (logaod b)).bind _).bind _ = _
      rw [p2]
      exact hn'

theorem pack_eq (sel : Nat → Bool) (lwvl logaod : Nat → ℚ) (nb : Nat) :
    pack sel lwvl logaod nb (countBands sel nb) =
      .ok (((chosen sel (List.range nb)).length : ℚ) :: flat lwvl logaod (chosen sel (List.range nb))) := by
  unfold pack
  rw [count_eq]
  obtain ⟨n, hn⟩ := packAll_eq sel lwvl logaod (List.range nb) [((chosen sel (List.range nb)).length : ℚ)]
  have p : put (List.replicate ((chosen sel (List.range nb)).length * 2 + 1) 0) 0 ((chosen sel (List.range nb)).length : ℚ) =
      .ok ([((chosen sel (List.range nb)).length : ℚ)] ++ List.replicate ((chosen sel (List.range nb)).length * 2) 0) := by
    unfold put
    rw [if_pos (by simp), List.replicate_succ]; rfl
  rw [p]
  show (packAll sel lwvl logaod (List.range nb) _).bind _ = _
  have hn' := hn
  rw [List.length_singleton] at hn'
  rw [hn']; rfl

theorem squares_eq (lwvl logaod : Nat → ℚ) (a0 a1 a2 : ℚ) (bs : List Nat) (pre : List ℚ) (tmp : ℚ) :
    squares (pre ++ flat lwvl logaod bs) a0 a1 a2 bs.length pre.length tmp =
      .ok (tmp + (bs.map fun b => (a0 + a1 * lwvl b + a2 * lwvl b ^ 2 - logaod b) ^ 2).sum) := by
  induction bs generalizing pre tmp with
  | nil => simp [squares]
  | cons b bs ih =>
    rw [List.length_cons, squares]
    have g1 : get (pre ++ flat lwvl logaod (b :: bs)) pre.length = .ok (lwvl b) := by
      unfold get; rw [List.getElem?_append_right (le_refl _)]; simp [flat]
    have g2 : get (pre ++ flat lwvl logaod (b :: bs)) (pre.length + 1) = .ok (logaod b) := by
      unfold get; rw [List.getElem?_append_right (by omega)]; simp [flat]
    rw [g1]
    show (get (pre ++ flat lwvl logaod (b :: bs)) (pre.length + 1)).bind _ = _
    rw [g2]
    show squares (pre ++ flat lwvl logaod (b :: bs)) a0 a1 a2 bs.length (pre.length + 2) _ = _
    have := ih (pre ++ [lwvl b, logaod b])
      (tmp + (a0 + a1 * lwvl b + a2 * lwvl b * lwvl b - logaod b) * (a0 + a1 * lwvl b + a2 * lwvl b * lwvl b - logaod b))
    have e : pre ++ [lwvl b, logaod b] ++ flat lwvl logaod bs = pre ++ flat lwvl logaod (b :: bs) := by simp [flat]
    rw [e, show (pre ++ [lwvl b, logaod b]).length = pre.length + 2 from by simp] at this
    rw [this, List.map_cons, List.sum_cons]
    congr 1; ring

/-- C313: for every choice of bands, all accesses are inside the array, and what is minimized is the mean over exactly the chosen
bands of the squared difference between the polynomial at the logarithm of the wavelength and the logarithm of the AOD of the
same band. Without any band it is NaN. -/
theorem c313_objective (sel : Nat → Bool) (lwvl logaod : Nat → ℚ) (nb : Nat) (a0 a1 a2 : ℚ) :
    objective sel lwvl logaod nb a0 a1 a2 =
      .ok (if (List.range nb).filter sel = [] then none else
        some ((((List.range nb).filter sel).map fun b => (a0 + a1 * lwvl b + a2 * lwvl b ^ 2 - logaod b) ^ 2).sum /
          ((List.range nb).filter sel).length)) := by
  unfold objective
  rw [pack_eq]
  show minimizer (((chosen sel (List.range nb)).length : ℚ) :: flat lwvl logaod (chosen sel (List.range nb))) a0 a1 a2 = _
  unfold minimizer
  show ((squares _ a0 a1 a2 ((chosen sel (List.range nb)).length : ℚ).num.toNat 1 0).bind _) = _
  rw [Rat.num_natCast, Int.toNat_natCast]
  have := squares_eq lwvl logaod a0 a1 a2 (chosen sel (List.range nb)) [((chosen sel (List.range nb)).length : ℚ)] 0
  rw [List.length_singleton] at this
  show ((squares ([((chosen sel (List.range nb)).length : ℚ)] ++ flat lwvl logaod (chosen sel (List.range nb))) a0 a1 a2
    (chosen sel (List.range nb)).length 1 0).bind _) = _
  rw [this]
  show Out.ok _ = Out.ok _
  unfold chosen
  by_cases h : (List.range nb).filter sel = []
  · rw [if_pos (by rw [h]; rfl), if_pos h]
  · rw [if_neg (fun hc => h (List.length_eq_zero_iff.1 hc)), if_neg h, zero_add]

/-- Two of three bands; the polynomial 1 + x fits the first one, and misses the third one by 2. -/
example : objective (fun b => b != 1) (fun b => b) (fun b => if b = 0 then 1 else 5) 3 1 1 0 = .ok (some 2) := by
  rw [c313_objective, if_neg (by decide)]
  norm_num [List.range_succ]

end Verif.Side
