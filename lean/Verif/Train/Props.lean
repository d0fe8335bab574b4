import Verif.FloatErr
import Verif.Index.Lemmas
import Verif.Stats.Props
import Verif.Train.Spec

/-!
# Theorems about training and validation samples
-/

namespace Verif.Train

open Verif.Str (Out)
open Verif.Index (truncQ truncQ_eq truncQ_abs)
open Verif.Float

theorem bind_ok {α β : Type} {o : Out α} {f : α → Out β} {b : β} (h : o.bind f = .ok b) :
    ∃ a, o = .ok a ∧ f a = .ok b := by
  cases o with
  | ok a => exact ⟨a, rfl, h⟩
  | exit => cases h
  | ub => cases h

/-! ## Marks -/

theorem draw_spec (rand : Nat → Nat) (used : List Bool) (h0 : 0 < used.length) (fuel i : Nat) (r : Nat × Nat)
    (h : draw rand used fuel i = some r) : r.1 < used.length ∧ used.getD r.1 false = false := by
  induction fuel generalizing i with
  | zero => cases h
  | succ f ih =>
    rw [draw] at h
    by_cases hc : used.getD (rand i % used.length) false = true
    · rw [if_pos hc] at h; exact ih _ h
    · rw [if_neg hc] at h
      cases h
      exact ⟨Nat.mod_lt _ h0, by simpa using hc⟩

theorem count_set (l : List Bool) (s : Nat) (hs : s < l.length) (hf : l.getD s false = false) :
    (l.set s true).count true = l.count true + 1 := by
  induction l generalizing s with
  | nil => simp at hs
  | cons a t ih =>
    cases s with
    | zero =>
      simp only [List.getD_cons_zero] at hf
      subst hf
      simp
    | succ k =>
      simp only [List.length_cons] at hs
      rw [List.set_cons_succ, List.count_cons, ih k (by omega) (by simpa using hf), List.count_cons]
      omega

theorem marks_random (rand : Nat → Nat) (fuel : Nat) (ks : List Nat) (used m : List Bool) (i : Nat)
    (h0 : 0 < used.length) (h : marks rand true fuel ks (used, i) = .ok (some m)) :
    m.length = used.length ∧ m.count true = used.count true + ks.length := by
  induction ks generalizing used i with
  | nil => cases h; exact ⟨rfl, rfl⟩
  | cons k ks ih =>
    rw [marks, if_pos rfl] at h
    cases hd : draw rand used fuel i with
    | none => rw [hd] at h; cases h
    | some r =>
      rw [hd] at h
      obtain ⟨h1, h2⟩ := draw_spec rand used h0 fuel i r hd
      have := ih _ _ (by rw [List.length_set]; exact h0) h
      rw [List.length_set, count_set _ _ h1 h2] at this
      refine ⟨this.1, ?_⟩
      rw [this.2, List.length_cons]; omega

theorem marks_first (rand : Nat → Nat) (fuel : Nat) (c n k i : Nat) (h : k + c ≤ n) :
    marks rand false fuel (List.range' k c) (List.replicate k true ++ List.replicate (n - k) false, i) =
      .ok (some (List.replicate (k + c) true ++ List.replicate (n - (k + c)) false)) := by
  induction c generalizing k with
  | zero => rfl
  | succ c ih =>
    rw [List.range'_succ, marks, if_neg (by decide), if_pos (by simp; omega)]
    have e : (List.replicate k true ++ List.replicate (n - k) false).set k true =
        List.replicate (k + 1) true ++ List.replicate (n - (k + 1)) false := by
      rw [List.set_append_right _ _ (by simp), List.length_replicate, Nat.sub_self,
        show n - k = (n - (k + 1)) + 1 by omega, List.replicate_succ, List.set_cons_zero, List.replicate_succ']
      simp
    rw [e, ih (k + 1) (by omega)]
    rw [show k + 1 + c = k + (c + 1) by omega]

/-! ## Distribution -/

theorem distribute_eq {α : Type} (nt nv : Nat) (l : List (Bool × α)) (t v : List α) (r : List α × List α)
    (h : distribute nt nv l (t, v) = .ok r) :
    r.1 = t ++ (l.filter (fun x => x.1)).map Prod.snd ∧ r.2 = v ++ (l.filter (fun x => !x.1)).map Prod.snd := by
  induction l generalizing t v with
  | nil => cases h; simp
  | cons a u ih =>
    obtain ⟨b, x⟩ := a
    cases b with
    | true =>
      rw [distribute] at h
      split at h
      · have := ih _ _ h; simp [this]
      · cases h
    | false =>
      rw [distribute] at h
      split at h
      · have := ih _ _ h; simp [this]
      · cases h

theorem distribute_ok {α : Type} (nt nv : Nat) (l : List (Bool × α)) (t v : List α)
    (h1 : t.length + (l.map Prod.fst).count true ≤ nt) (h2 : v.length + (l.map Prod.fst).count false ≤ nv) :
    ∃ r, distribute nt nv l (t, v) = .ok r := by
  induction l generalizing t v with
  | nil => exact ⟨_, rfl⟩
  | cons a u ih =>
    obtain ⟨b, x⟩ := a
    cases b with
    | true =>
      simp at h1 h2
      rw [distribute, if_pos (by omega)]
      exact ih _ _ (by simp; omega) (by omega)
    | false =>
      simp at h1 h2
      rw [distribute, if_pos (by omega)]
      exact ih _ _ (by omega) (by simp; omega)

theorem part_perm {α : Type} (l : List (Bool × α)) :
    ((l.filter (fun x => x.1)).map Prod.snd ++ (l.filter (fun x => !x.1)).map Prod.snd).Perm (l.map Prod.snd) := by
  rw [← List.map_append]
  exact (List.filter_append_perm _ l).map _

theorem filter_length {α : Type} (m : List Bool) (l : List α) (h : m.length = l.length) :
    (((m.zip l).filter (fun x => x.1)).map Prod.snd).length = m.count true := by
  induction m generalizing l with
  | nil => simp
  | cons b m ih =>
    cases l with
    | nil => simp at h
    | cons x l =>
      have := ih l (by simpa using h)
      cases b <;> simp_all

theorem filter_first {α : Type} (k : Nat) (l : List α) (h : k ≤ l.length) :
    (((List.replicate k true ++ List.replicate (l.length - k) false).zip l).filter (fun x => x.1)).map Prod.snd =
      l.take k := by
  induction k generalizing l with
  | zero =>
    rw [List.take_zero, List.map_eq_nil_iff, List.filter_eq_nil_iff]
    intro a ha
    have := (List.of_mem_zip (a := a.1) (b := a.2) ha).1
    simp at this
    simp [this.2]
  | succ k ih =>
    cases l with
    | nil => simp at h
    | cons x l =>
      have := ih l (by simpa using h)
      simp [List.replicate_succ, this]

/-! ## Samples -/

theorem classes_get (vals : List ℚ) (cls : List Int) (h : classes vals = .ok cls) :
    cls.length = vals.length ∧ ∀ (i : Nat) (x : ℚ), vals[i]? = some x → ∃ c : Int, cls[i]? = some c ∧ c = truncQ x := by
  induction vals generalizing cls with
  | nil => cases h; simp
  | cons a t ih =>
    rw [classes] at h
    obtain ⟨c, hc, h⟩ := bind_ok h
    obtain ⟨cs, hcs, h⟩ := bind_ok h
    cases h
    obtain ⟨hl, hg⟩ := ih cs hcs
    refine ⟨by simp [hl], ?_⟩
    intro i x hx
    cases i with
    | zero =>
      simp at hx; subst hx
      unfold classOf at hc
      split at hc
      · cases hc; exact ⟨_, rfl, rfl⟩
      · cases hc
    | succ i => simpa using hg i x (by simpa using hx)

theorem column_get (var : Nat) (resp : List (List ℚ)) (vals : List ℚ) (h : column var resp = .ok vals) :
    vals.length = resp.length ∧ ∀ (i : Nat) (row : List ℚ), resp[i]? = some row →
      ∃ x, row[var - 1]? = some x ∧ vals[i]? = some x := by
  induction resp generalizing vals with
  | nil => cases h; simp
  | cons a t ih =>
    rw [column] at h
    cases ha : a[var - 1]? with
    | none => rw [ha] at h; cases h
    | some x =>
      rw [ha] at h
      obtain ⟨xs, hxs, h⟩ := bind_ok h
      cases h
      obtain ⟨hl, hg⟩ := ih xs hxs
      refine ⟨by simp [hl], ?_⟩
      intro i row hr
      cases i with
      | zero => simp at hr; subst hr; exact ⟨x, ha, rfl⟩
      | succ i => simpa using hg i row (by simpa using hr)

theorem samples_length (rf rd : ℚ → ℚ) (feats : List (List ℚ)) (vals : List ℚ) (cls : List Int)
    (h1 : feats.length = vals.length) (h2 : cls.length = vals.length) :
    (samples rf rd feats vals cls).length = vals.length := by
  unfold samples
  rw [List.length_zipWith, List.length_zip, h1, h2]; omega

theorem feature_err (rf rd : ℚ → ℚ) (hrf : ∀ x, Nearest 24 x (rf x)) (hrd : ∀ x, Nearest 53 x (rd x)) (a : ℚ) :
    |feature rf rd a - a / 10000| ≤ |a| / 10000 / 2 ^ 23 := by
  unfold feature
  have h1 := nearest_err (by norm_num) (hrd (a / 10000))
  have h2 := nearest_err (by norm_num) (hrf (rd (a / 10000)))
  generalize rd (a / 10000) = y at *
  generalize rf y = z at *
  have e : |a / 10000| = |a| / 10000 := by rw [abs_div]; norm_num
  rw [e] at h1
  have h3 : |y| ≤ |a| / 10000 + |a| / 10000 / 2 ^ 53 := by
    have := abs_sub_abs_le_abs_sub y (a / 10000)
    rw [e, abs_sub_comm] at this
    linarith
  have h4 : |z - a / 10000| ≤ |a / 10000 - y| + |y - z| := by
    rw [show z - a / 10000 = -((a / 10000 - y) + (y - z)) by ring, abs_neg]
    exact abs_add_le _ _
  have h5 : 0 ≤ |a| := abs_nonneg a
  norm_num at h1 h2 h3 ⊢
  linarith

theorem samples_get (rf rd : ℚ → ℚ) (hrf : ∀ x, Nearest 24 x (rf x)) (hrd : ∀ x, Nearest 53 x (rd x))
    (feats : List (List ℚ)) (vals : List ℚ) (cls : List Int) (h : classes vals = .ok cls) (i : Nat) (f : List ℚ)
    (x : ℚ) (hf : feats[i]? = some f) (hx : vals[i]? = some x) :
    ∃ s, (samples rf rd feats vals cls)[i]? = some s ∧ IsSample f x s := by
  obtain ⟨_, hg⟩ := classes_get vals cls h
  obtain ⟨c, hc, rfl⟩ := hg i x hx
  refine ⟨⟨f.map (feature rf rd), rf x, truncQ x⟩, ?_, ?_⟩
  · unfold samples
    rw [List.getElem?_zipWith, hf]
    have : (vals.zip cls)[i]? = some (x, truncQ x) := by
      rw [List.zip, List.getElem?_zipWith, hx, hc]
    rw [this]
  · refine ⟨by simp, ?_, hrf x, truncQ_abs x⟩
    intro j a b ha hb
    rw [List.getElem?_map, ha] at hb
    simp at hb
    subst hb
    exact feature_err rf rd hrf hrd a

/-! ## The run -/

theorem run_cases {rf rd : ℚ → ℚ} {atof : String → ℚ} {rand : Nat → Nat} {fuel : Nat} {par : Par} {ncol : Nat}
    {resp feats : List (List ℚ)} {S : Setup} (h : run rf rd atof rand fuel par ncol resp feats = .ok (some S)) :
    ∃ vals cls nt m, column par.var resp = .ok vals ∧ classes vals = .ok cls ∧ feats.length = resp.length ∧
      0 < resp.length ∧ nTrain rf resp.length par.percent = (nt : Nat) ∧ nt ≤ resp.length ∧ 1 ≤ nt ∧
      marks rand par.random fuel (List.range nt) (List.replicate vals.length false, 0) = .ok (some m) ∧
      distribute nt (vals.length - nt) (m.zip (samples rf rd feats vals cls)) ([], []) = .ok (S.train, S.val) ∧
      priors rf atof par cls = .ok S.priors := by
  unfold run at h
  split at h
  · cases h
  rename_i h0
  split at h
  · cases h
  obtain ⟨vals, hv, h⟩ := bind_ok h
  obtain ⟨cls, hc, h⟩ := bind_ok h
  split at h
  · cases h
  rename_i hl
  dsimp only at h
  split at h
  · cases h
  rename_i hn
  push Not at hn
  unfold split at h
  obtain ⟨m, hm, h⟩ := bind_ok h
  cases m with
  | none => cases h
  | some m =>
    dsimp only at h
    obtain ⟨tv, htv, h⟩ := bind_ok h
    obtain ⟨pr, hpr, h⟩ := bind_ok h
    split at h
    · cases h
    · cases h
      exact ⟨vals, cls, _, m, hv, hc, by omega, by omega, by omega, by omega, by omega, hm, htv, hpr⟩

theorem marks_length {rand : Nat → Nat} {random : Bool} {fuel n nt : Nat} {m : List Bool} (hn : 0 < n) (hnt : nt ≤ n)
    (h : marks rand random fuel (List.range nt) (List.replicate n false, 0) = .ok (some m)) :
    m.length = n ∧ m.count true = nt ∧
      (random = false → m = List.replicate nt true ++ List.replicate (n - nt) false) := by
  cases random with
  | true =>
    have := marks_random rand fuel _ _ _ _ (by simpa using hn) h
    simp [List.count_replicate] at this
    refine ⟨this.1, this.2, by simp⟩
  | false =>
    have e := marks_first rand fuel nt n 0 0 (by omega)
    rw [List.range_eq_range'] at h
    simp only [List.replicate_zero, List.nil_append, Nat.sub_zero, Nat.zero_add] at e
    rw [e] at h
    cases h
    simp [List.count_replicate]
    omega

/-- C235: every sample is used either for training or for validation. Training and validation samples are in the order
of the files, with their own response; without random split, the first samples are used for training. There is at least
one training sample, and their number is the one computed from the percentage. -/
theorem c235_split (rf rd : ℚ → ℚ) (hrf : ∀ x, Nearest 24 x (rf x)) (hrd : ∀ x, Nearest 53 x (rd x))
    (atof : String → ℚ) (rand : Nat → Nat) (fuel : Nat) (par : Par) (ncol : Nat) (resp feats : List (List ℚ)) (S : Setup)
    (h : run rf rd atof rand fuel par ncol resp feats = .ok (some S)) :
    ∃ all : List Sample, all.length = resp.length ∧
      (∀ (i : Nat) (row f : List ℚ), resp[i]? = some row → feats[i]? = some f →
        ∃ x s, row[par.var - 1]? = some x ∧ all[i]? = some s ∧ IsSample f x s) ∧
      S.train.Sublist all ∧ S.val.Sublist all ∧ (S.train ++ S.val).Perm all ∧ 1 ≤ S.train.length ∧
      (par.random = false → S.train = all.take S.train.length) ∧ feats.length = resp.length := by
  obtain ⟨vals, cls, nt, m, hv, hc, hfl, h0, _, hle, h1, hm, hd, _⟩ := run_cases h
  obtain ⟨hvl, hvg⟩ := column_get _ _ _ hv
  obtain ⟨hcl, _⟩ := classes_get _ _ hc
  have hsl := samples_length rf rd feats vals cls (by omega) hcl
  obtain ⟨hml, hmc, hmf⟩ := marks_length (by omega) (by omega) hm
  obtain ⟨e1, e2⟩ := distribute_eq _ _ _ _ _ _ hd
  dsimp only at e1 e2
  rw [List.nil_append] at e1 e2
  have hsnd : (m.zip (samples rf rd feats vals cls)).map Prod.snd = samples rf rd feats vals cls :=
    List.map_snd_zip (by omega)
  have hlen : S.train.length = nt := by rw [e1, filter_length _ _ (by omega), hmc]
  refine ⟨samples rf rd feats vals cls, by omega, ?_, ?_, ?_, ?_, by omega, ?_, hfl⟩
  · intro i row f hr hf
    obtain ⟨x, hx, hx'⟩ := hvg i row hr
    obtain ⟨s, hs, hs'⟩ := samples_get rf rd hrf hrd feats vals cls hc i f x hf hx'
    exact ⟨x, s, hx, hs, hs'⟩
  · rw [e1]; conv_rhs => rw [← hsnd]
    exact (List.filter_sublist).map _
  · rw [e2]; conv_rhs => rw [← hsnd]
    exact (List.filter_sublist).map _
  · rw [e1, e2]
    have := part_perm (m.zip (samples rf rd feats vals cls))
    rwa [hsnd] at this
  · intro hr
    rw [hlen, e1, hmf hr, ← hsl]
    exact filter_first nt _ (by omega)

/-- The number of training samples is the one of `nTrain`. -/
theorem train_length {rf rd : ℚ → ℚ} {atof : String → ℚ} {rand : Nat → Nat} {fuel : Nat} {par : Par} {ncol : Nat}
    {resp feats : List (List ℚ)} {S : Setup} (h : run rf rd atof rand fuel par ncol resp feats = .ok (some S)) :
    (S.train.length : Int) = nTrain rf resp.length par.percent := by
  obtain ⟨vals, cls, nt, m, hv, hc, hfl, h0, hn, hle, h1, hm, hd, _⟩ := run_cases h
  obtain ⟨hvl, hvg⟩ := column_get _ _ _ hv
  obtain ⟨hcl, _⟩ := classes_get _ _ hc
  have hsl := samples_length rf rd feats vals cls (by omega) hcl
  obtain ⟨hml, hmc, hmf⟩ := marks_length (by omega) (by omega) hm
  obtain ⟨e1, e2⟩ := distribute_eq _ _ _ _ _ _ hd
  dsimp only at e1 e2
  rw [List.nil_append] at e1
  rw [e1, filter_length _ _ (by omega), hmc, hn]

end Verif.Train
