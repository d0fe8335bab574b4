import Verif.Ml.Spec
import Verif.Stats.Props
import Verif.Index.Lemmas
import Mathlib.Algebra.BigOperators.Group.List.Basic
import Mathlib.Algebra.BigOperators.Group.Finset.Basic

/-! # Lemmas on the loops over models and sets -/

namespace Verif.Ml

open Verif.Str (Out)
open Verif.Index (truncQ short)
open Spec

theorem vote_k {par : Par} {M : Models} {nc : Nat} {s t : St} (h : vote par M nc s = .ok t) :
    t.k = s.k ∧ t.m = s.m ∧ t.mean = s.mean ∧ t.old = s.old ∧ t.var = s.var := by
  unfold vote at h
  split at h
  · dsimp only at h
    split at h
    · cases h
    · cases h; exact ⟨rfl, rfl, rfl, rfl, rfl⟩
  · cases hi : intOf (M.predict s.k) with
    | ok i => rw [hi] at h; cases h; exact ⟨rfl, rfl, rfl, rfl, rfl⟩
    | exit => rw [hi] at h; cases h
    | ub => rw [hi] at h; cases h

theorem winner_aux (v : List (Int × Int)) : ∀ w : Int × Int,
    let r := v.foldl (fun w c => if c.2 > w.2 then c else w) w
    (r = w ∧ ∀ x ∈ v, x.2 ≤ w.2) ∨
    (w.2 < r.2 ∧ ∃ a b, v = a ++ r :: b ∧ (∀ x ∈ a, x.2 < r.2) ∧ ∀ x ∈ b, x.2 ≤ r.2) := by
  induction v with
  | nil => intro w; left; simp
  | cons c v ih =>
    intro w
    simp only [List.foldl_cons]
    by_cases hc : c.2 > w.2
    · rw [if_pos hc]
      rcases ih c with ⟨h1, h2⟩ | ⟨h1, a, b, h2, h3, h4⟩
      · right
        rw [h1]
        exact ⟨hc, [], v, rfl, by simp, h2⟩
      · right
        refine ⟨by omega, c :: a, b, by rw [List.cons_append, ← h2], ?_, h4⟩
        intro x hx
        rcases List.mem_cons.1 hx with rfl | hx
        · exact h1
        · exact h3 x hx
    · rw [if_neg hc]
      rcases ih w with ⟨h1, h2⟩ | ⟨h1, a, b, h2, h3, h4⟩
      · left
        refine ⟨h1, fun x hx => ?_⟩
        rcases List.mem_cons.1 hx with rfl | hx
        · omega
        · exact h2 x hx
      · right
        refine ⟨h1, c :: a, b, by rw [List.cons_append, ← h2], ?_, h4⟩
        intro x hx
        rcases List.mem_cons.1 hx with rfl | hx
        · omega
        · exact h3 x hx

theorem votesFor_of {v : List (Int × Int)} {c : Nat} {x : Int × Int} (h : v[c]? = some x) : votesFor v c = x.2 := by
  unfold votesFor; rw [h]

theorem votesFor_none {v : List (Int × Int)} {c : Nat} (h : v[c]? = none) : votesFor v c = 0 := by
  unfold votesFor; rw [h]

theorem winner_wins {v : List (Int × Int)} (h : ∃ x ∈ v, 0 < x.2) :
    ∃ c, Wins v c ∧ v[c]? = some (winner v) := by
  rcases winner_aux v (0, 0) with ⟨_, h2⟩ | ⟨h1, a, b, h2, h3, h4⟩
  · obtain ⟨x, hx, h0⟩ := h
    have := h2 x hx
    simp at this
    omega
  · have hget : v[a.length]? = some (winner v) := by
      have e : winner v = v.foldl (fun w c => if c.2 > w.2 then c else w) (0, 0) := rfl
      rw [e]
      conv_lhs => rw [h2]
      simp
    refine ⟨a.length, ⟨?_, ?_, ?_⟩, hget⟩
    · by_contra hn
      rw [List.getElem?_eq_none (by omega)] at hget
      cases hget
    · intro d hd
      have hx : v[d]? = some a[d] := by
        rw [h2, List.getElem?_append_left hd, List.getElem?_eq_getElem hd]
      rw [votesFor_of hx, votesFor_of hget]
      exact h3 _ (List.getElem_mem hd)
    · intro d
      rw [votesFor_of hget]
      cases hx : v[d]? with
      | none =>
        rw [votesFor_none hx]
        exact le_of_lt h1
      | some x =>
        rw [votesFor_of hx]
        have hm : x ∈ v := List.mem_of_getElem? hx
        rw [h2] at hm
        rcases List.mem_append.1 hm with hm | hm
        · exact le_of_lt (h3 x hm)
        · rcases List.mem_cons.1 hm with rfl | hm
          · exact le_refl _
          · exact h4 x hm

theorem truncQ_int (z : Int) : truncQ (z : ℚ) = z := by
  unfold truncQ
  simp

/-- One model of a classification. -/
theorem vote_class {par : Par} {M : Models} {nc : Nat} {s : St}
    (hv : par.rfprob = true → (M.votes s.k).length = nc ∧ ∃ x ∈ M.votes s.k, 0 < x.2)
    (hp : par.rfprob = false → ∃ z : Int, M.predict s.k = z)
    (hr : ∀ cls, Assigns par M s.k cls → -32768 ≤ cls ∧ cls ≤ 32767) :
    ∃ cls, Assigns par M s.k cls ∧ ∃ t, vote par M nc s = .ok t ∧ t.ipred = s.ipred ++ [cls] ∧
      t.prob = (if par.rfprob = true then List.zipWith (· + ·) s.prob ((M.votes s.k).map Prod.snd) else s.prob) ∧
      t.ntree = (if par.rfprob = true then s.ntree + ((M.votes s.k).map Prod.snd).sum else s.ntree) := by
  unfold vote
  by_cases hb : par.rfprob = true
  · obtain ⟨hl, hx⟩ := hv hb
    obtain ⟨c, hw, hc⟩ := winner_wins hx
    rw [if_pos hb]
    dsimp only
    rw [if_neg (by omega)]
    refine ⟨(winner (M.votes s.k)).1, ?_, _, rfl, ?_, ?_, ?_⟩
    · unfold Assigns
      rw [if_pos hb]
      exact ⟨c, (winner (M.votes s.k)).2, hw, hc⟩
    · rw [List.take_of_length_le (by omega)]
    · rw [List.take_of_length_le (by omega), if_pos hb]
    · rw [List.take_of_length_le (by omega), if_pos hb]
  · obtain ⟨z, hz⟩ := hp (by simpa using hb)
    have ha : Assigns par M s.k z := by
      unfold Assigns
      rw [if_neg hb]
      exact hz
    have hzr := hr z ha
    rw [if_neg hb, hz]
    unfold intOf
    rw [truncQ_int, if_pos (by omega)]
    exact ⟨z, ha, _, rfl, rfl, by rw [if_neg hb], by rw [if_neg hb]⟩

/-- The loop over the models of a classification. -/
theorem models_class {par : Par} {M : Models} {nc nm : Nat} (hreg : par.regression = false) : ∀ (n : Nat) (s : St),
    (par.rfprob = true → ∀ j < n, (M.votes (s.k + j)).length = nc ∧ ∃ x ∈ M.votes (s.k + j), 0 < x.2) →
    (par.rfprob = false → ∀ j < n, ∃ z : Int, M.predict (s.k + j) = z) →
    (∀ j < n, ∀ cls, Assigns par M (s.k + j) cls → -32768 ≤ cls ∧ cls ≤ 32767) →
    ∃ t, models par M nc nm n s = .ok t ∧ t.m = s.m + n ∧ t.k = s.k + n ∧
      (∃ labs : List Int, t.ipred = s.ipred ++ labs ∧ labs.length = n ∧
        ∀ j cls, labs[j]? = some cls → Assigns par M (s.k + j) cls) ∧
      (par.rfprob = true → s.prob.length = nc → t.prob.length = nc ∧
        (∀ c < nc, ∃ x y, s.prob[c]? = some x ∧ t.prob[c]? = some y ∧ y = x + votesOf M s.k n c) ∧
        t.ntree = s.ntree + allVotes M s.k n nc) := by
  intro n
  induction n with
  | zero =>
    intro s _ _ _
    refine ⟨s, rfl, rfl, rfl, ⟨[], by simp, rfl, by simp⟩, fun _ hl => ⟨hl, fun c hc => ?_, ?_⟩⟩
    · exact ⟨s.prob[c], s.prob[c], List.getElem?_eq_getElem (by omega), List.getElem?_eq_getElem (by omega),
        by simp [votesOf]⟩
    · simp [allVotes, votesOf]
  | succ n ih =>
    intro s hv hp hr
    obtain ⟨cls, hcls, t, ht, hi, hpr, hnt⟩ := vote_class (nc := nc) (s := s)
      (fun hb => by simpa using hv hb 0 (by omega)) (fun hb => by simpa using hp hb 0 (by omega))
      (fun c hc => hr 0 (by omega) c (by simpa using hc))
    obtain ⟨hk, hm, _, _, _⟩ := vote_k ht
    have hshift : ∀ j, t.k + 1 + j = s.k + (j + 1) := by intro j; omega
    obtain ⟨u, hu, um, uk, ⟨labs, ul, uln, ua⟩, up⟩ := ih { t with m := t.m + 1, k := t.k + 1 }
      (fun hb j hj => by simp only [hshift]; exact hv hb (j + 1) (by omega))
      (fun hb j hj => by simp only [hshift]; exact hp hb (j + 1) (by omega))
      (fun j hj => by simp only [hshift]; exact hr (j + 1) (by omega))
    refine ⟨u, ?_, ?_, ?_, ⟨cls :: labs, ?_, by simp [uln], ?_⟩, ?_⟩
    · unfold models
      rw [ht]
      simp only [Out.bind, hreg, Bool.false_eq_true, if_false]
      exact hu
    · rw [um]; show t.m + 1 + n = _; omega
    · rw [uk]; show t.k + 1 + n = _; omega
    · rw [ul]; show t.ipred ++ labs = _; rw [hi]; simp
    · intro j c hc
      cases j with
      | zero =>
        simp only [List.getElem?_cons_zero, Option.some.injEq] at hc
        rw [← hc]; simpa using hcls
      | succ j =>
        rw [List.getElem?_cons_succ] at hc
        have := ua j c hc
        simp only [hshift] at this
        exact this
    · intro hb hl
      rw [if_pos hb] at hpr hnt
      obtain ⟨hlen, _⟩ := hv hb 0 (by omega)
      rw [Nat.add_zero] at hlen
      obtain ⟨q1, q2, q3⟩ := up hb (by
        show t.prob.length = nc
        rw [hpr]; simp [hl, hlen])
      refine ⟨q1, fun c hc => ?_, ?_⟩
      · obtain ⟨x, y, hx, hy, he⟩ := q2 c hc
        refine ⟨s.prob[c], y, List.getElem?_eq_getElem (by omega), hy, ?_⟩
        have hx' : t.prob[c]? = some x := hx
        have hvc : (M.votes s.k)[c]? = some (M.votes s.k)[c] := List.getElem?_eq_getElem (by omega)
        rw [hpr, List.getElem?_zipWith, List.getElem?_eq_getElem (by omega), List.getElem?_map, hvc] at hx'
        simp only [Option.map_some, Option.some.injEq] at hx'
        rw [he, ← hx']
        unfold votesOf
        rw [Finset.sum_range_succ', Nat.add_zero s.k, votesFor_of hvc]
        simp only [hshift]
        ring
      · rw [q3]
        show t.ntree + allVotes M (t.k + 1) n nc = _
        rw [hnt]
        have e1 : ((M.votes s.k).map Prod.snd).sum = ∑ c ∈ Finset.range nc, votesFor (M.votes s.k) c := by
          rw [← hlen]
          clear * -
          induction M.votes s.k with
          | nil => simp
          | cons a l ih =>
            rw [List.map_cons, List.sum_cons, ih, List.length_cons, Finset.sum_range_succ']
            simp only [votesFor, List.getElem?_cons_succ, List.getElem?_cons_zero]
            ring
        unfold allVotes votesOf
        rw [e1, add_assoc, ← Finset.sum_add_distrib]
        congr 1
        apply Finset.sum_congr rfl
        intro c _
        rw [Finset.sum_range_succ', Nat.add_zero s.k]
        simp only [hshift]
        ring

/-- The first `m` predictions. -/
def preds (M : Models) (k m : Nat) : List ℚ := (List.range m).map fun (j : Nat) => M.predict (k + j)

theorem mean_preds (M : Models) (k m : Nat) : Verif.Stats.Spec.mean (preds M k m) = meanOf M k m := by
  unfold Verif.Stats.Spec.mean preds meanOf
  rw [List.length_map, List.length_range]
  congr 1

theorem preds_succ (M : Models) (k m : Nat) : preds M k (m + 1) = preds M k m ++ [M.predict (k + m)] := by
  simp [preds, List.range_succ]

theorem varLoop_preds (M : Models) (k m : Nat) : Verif.Stats.varLoop (preds M k (m + 1)) (0, 0, 0) =
    (m + 1, meanOf M k (m + 1), Verif.Stats.Spec.moment 2 (preds M k (m + 1))) := by
  rw [Verif.Stats.c36_variance _ (by simp [preds]), mean_preds]
  simp [preds]

theorem average_eq {M : Models} {k : Nat} {s : St} (hk : s.k = k + s.m)
    (h : (s.m, s.mean, s.var) = Verif.Stats.varLoop (preds M k s.m) (0, 0, 0)) :
    average M s = { s with mean := meanOf M k (s.m + 1), var := Verif.Stats.Spec.moment 2 (preds M k (s.m + 1)) } := by
  have h2 := varLoop_preds M k s.m
  have h3 : Verif.Stats.varLoop (preds M k (s.m + 1)) (0, 0, 0) =
      if s.m + 1 = 1 then (s.m + 1, M.predict (k + s.m), s.var)
      else (s.m + 1, (Verif.Stats.varRec (M.predict (k + s.m)) s.mean s.var ((s.m + 1 : Nat) : ℚ)).1,
        (Verif.Stats.varRec (M.predict (k + s.m)) s.mean s.var ((s.m + 1 : Nat) : ℚ)).2) := by
    rw [preds_succ, Verif.Stats.varLoop_snoc, ← h]
    rfl
  rw [h2] at h3
  unfold average
  rw [hk]
  by_cases h0 : s.m = 0
  · rw [if_pos h0]
    rw [if_pos (by omega)] at h3
    simp only [Prod.mk.injEq, true_and] at h3
    rw [h3.1, h3.2]
  · rw [if_neg h0]
    rw [if_neg (by omega)] at h3
    simp only [Prod.mk.injEq, true_and] at h3
    rw [h3.1, h3.2]

/-- The loop over the models of a regression. -/
theorem models_reg {par : Par} {M : Models} {nc nm k : Nat} (hreg : par.regression = true) (hrf : par.rfprob = false)
    (hint : ∀ j < nm, -2147483649 < M.predict (k + j) ∧ M.predict (k + j) < 2147483648) : ∀ (n : Nat) (s : St),
    s.m + n = nm → s.k = k + s.m → s.old = s.mean →
    (s.m, s.mean, s.var) = Verif.Stats.varLoop (preds M k s.m) (0, 0, 0) →
    (∀ j ≤ s.m, ¬ Settled par.converge M k j) →
    ∃ t, models par M nc nm n s = .ok t ∧ t.k = k + nm ∧ Used par.converge M k nm t.m ∧
      (t.m, t.mean, t.var) = Verif.Stats.varLoop (preds M k t.m) (0, 0, 0) := by
  intro n
  induction n with
  | zero =>
    intro s hn hk _ hl hset
    exact ⟨s, rfl, by omega, ⟨by omega, fun j hj => hset j (by omega), Or.inr (by omega)⟩, hl⟩
  | succ n ih =>
    intro s hn hk ho hl hset
    obtain ⟨t, ht⟩ : ∃ t, vote par M nc s = .ok t := by
      unfold vote
      rw [if_neg (by rw [hrf]; simp)]
      have h := hint s.m (by omega)
      unfold intOf
      rw [hk, if_pos]
      · exact ⟨_, rfl⟩
      · obtain ⟨a, b, c⟩ := Verif.Index.truncQ_abs (M.predict (k + s.m))
        rw [Verif.Index.truncQ_eq]
        split
        · rename_i h0
          constructor
          · have : (0 : Int) ≤ ⌊M.predict (k + s.m)⌋ := Int.floor_nonneg.2 h0
            omega
          · have : ⌊M.predict (k + s.m)⌋ < 2147483648 := by
              rw [Int.floor_lt]; exact_mod_cast h.2
            omega
        · rename_i h0
          constructor
          · have : -2147483649 < ⌈M.predict (k + s.m)⌉ := by
              rw [Int.lt_ceil]; exact_mod_cast h.1
            omega
          · have : ⌈M.predict (k + s.m)⌉ ≤ 0 := by
              rw [Int.ceil_le]; push_cast; linarith
            omega
    obtain ⟨tk, tm, tmean, told, tvar⟩ := vote_k ht
    have hav := average_eq (M := M) (k := k) (s := t) (by omega) (by rw [tm, tmean, tvar]; exact hl)
    unfold models
    rw [ht]
    simp only [Out.bind, hreg, if_true]
    rw [hav]
    dsimp only
    have hold : t.m > 1 → t.old = meanOf M k t.m := by
      intro h1
      rw [told, ho]
      have := hl
      obtain ⟨i, hi⟩ : ∃ i, s.m = i + 1 := ⟨s.m - 1, by omega⟩
      rw [hi, varLoop_preds] at this
      simp only [Prod.mk.injEq] at this
      rw [this.2.1, tm, hi]
    have hiff : (t.m > 1 ∧ |meanOf M k (t.m + 1) - t.old| < par.converge) ↔ Settled par.converge M k (t.m + 1) := by
      unfold Settled
      rw [Nat.add_sub_cancel]
      constructor
      · rintro ⟨h1, h2⟩
        rw [hold h1] at h2
        exact ⟨by omega, h2⟩
      · rintro ⟨h1, h2⟩
        have h1 : t.m > 1 := by omega
        rw [hold h1]
        exact ⟨h1, h2⟩
    by_cases hs : Settled par.converge M k (t.m + 1)
    · rw [if_pos (hiff.2 hs)]
      refine ⟨_, rfl, ?_, ⟨?_, ?_, Or.inl hs⟩, (varLoop_preds M k t.m).symm⟩
      · show t.k + (nm - t.m) = _
        omega
      · show t.m + 1 ≤ nm
        omega
      · intro j hj
        exact hset j (by
          have : j < t.m + 1 := hj
          omega)
    · rw [if_neg (fun h => hs (hiff.1 h))]
      obtain ⟨u, hu⟩ := ih { t with mean := meanOf M k (t.m + 1), var := Verif.Stats.Spec.moment 2 (preds M k (t.m + 1)),
                                    old := meanOf M k (t.m + 1), m := t.m + 1, k := t.k + 1 }
        (by show t.m + 1 + n = nm; omega) (by show t.k + 1 = k + (t.m + 1); omega) rfl
        (varLoop_preds M k t.m).symm (by
          intro j hj
          have hj : j ≤ t.m + 1 := hj
          rcases Nat.lt_or_ge j (t.m + 1) with h | h
          · exact hset j (by omega)
          · rw [show j = t.m + 1 by omega]; exact hs)
      exact ⟨u, hu⟩

/-- The loop over the sets. -/
theorem sets_ok {par : Par} {M : Models} {rd sq : ℚ → ℚ} : ∀ (L : List (Nat × Nat)) (k : Nat) (Q : Nat → St → Prop),
    (∀ (i nm nc : Nat), L[i]? = some (nm, nc) → ∃ s, models par M nc nm nm (start nc (k + first L i)) = .ok s ∧
      s.k = k + first L i + nm ∧ Q i s) →
    ∃ R, sets par M rd sq L k = .ok R ∧ R.length = L.length ∧
      ∀ i, i < L.length → ∃ s, R[i]? = some (result par rd sq s) ∧ Q i s := by
  intro L
  induction L with
  | nil => intro k Q _; exact ⟨[], rfl, rfl, by simp⟩
  | cons a L ih =>
    intro k Q h
    obtain ⟨nm, nc⟩ := a
    obtain ⟨s, hs, hk, hq⟩ := h 0 nm nc rfl
    have f0 : first ((nm, nc) :: L) 0 = 0 := by simp [first]
    have fs : ∀ i, first ((nm, nc) :: L) (i + 1) = nm + first L i := by intro i; simp [first]
    rw [f0, Nat.add_zero] at hs hk
    obtain ⟨R, hR, hlen, hall⟩ := ih s.k (fun i => Q (i + 1)) (by
      intro i nm' nc' hi
      have := h (i + 1) nm' nc' (by rw [List.getElem?_cons_succ]; exact hi)
      rw [fs, ← Nat.add_assoc, ← hk] at this
      exact this)
    refine ⟨result par rd sq s :: R, ?_, by simp [hlen], ?_⟩
    · unfold sets
      rw [hs]
      simp only [Out.bind]
      rw [hR]
    · intro i hi
      cases i with
      | zero => exact ⟨s, rfl, hq⟩
      | succ i =>
        rw [List.getElem?_cons_succ]
        exact hall i (by simpa using hi)

end Verif.Ml
