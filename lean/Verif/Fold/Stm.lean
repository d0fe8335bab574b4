import Verif.Fold.Props

/-!
# Theorems about the spectral temporal metrics: C42
-/

namespace Verif.Fold

open Spec
open Verif.Stats.Spec (mean moment)
open Verif.Str (Out)
open Verif.Date (DateT)

/-! ## Layers -/

/-- Layer of a statistic other than a quantile. -/
def slot (s : StaPar) : Sta → Int
  | .num => s.num | .min => s.min | .max => s.max | .rng => s.rng | .iqr => s.iqr | .avg => s.avg
  | .std => s.std | .skw => s.skw | .krt => s.krt | .q _ => -1

/-- Quantiles among the requested metrics, with their layers. -/
def qIdx : List Sta → Int → List (Int × Nat)
  | [], _ => []
  | .q k :: ms, i => (i, k) :: qIdx ms (i + 1)
  | _ :: ms, i => qIdx ms (i + 1)

theorem qIdx_mem (ms : List Sta) (i j : Int) (k : Nat) :
    (j, k) ∈ qIdx ms i ↔ ∃ t : Nat, ms[t]? = some (.q k) ∧ j = i + t := by
  induction ms generalizing i with
  | nil => simp [qIdx]
  | cons m ms ih =>
    have step : ((∃ t : Nat, (m :: ms)[t]? = some (Sta.q k) ∧ j = i + t) ↔
        (m = .q k ∧ j = i) ∨ ∃ t : Nat, ms[t]? = some (.q k) ∧ j = i + 1 + t) := by
      constructor
      · rintro ⟨t, h1, h2⟩
        cases t with
        | zero => left; exact ⟨by simpa using h1, by simpa using h2⟩
        | succ t => right; exact ⟨t, by simpa using h1, by push_cast at h2; omega⟩
      · rintro (⟨h1, h2⟩ | ⟨t, h1, h2⟩)
        · exact ⟨0, by simp [h1], by simp [h2]⟩
        · exact ⟨t + 1, by simpa using h1, by push_cast; omega⟩
    rw [step, ← ih]
    cases m <;> simp [qIdx]
    constructor
    · rintro (⟨rfl, rfl⟩ | h)
      · exact Or.inl ⟨rfl, rfl⟩
      · exact Or.inr h
    · rintro (⟨rfl, rfl⟩ | h)
      · exact Or.inl ⟨rfl, rfl⟩
      · exact Or.inr h

theorem parseLoop_ok (ms : List Sta) (i : Int) (s : StaPar)
    (hq : s.qs.length + (qIdx ms i).length ≤ 100) (hnd : ms.Nodup) :
    ∃ s', parseLoop ms i s = .ok s' ∧ s'.qs = s.qs ++ qIdx ms i ∧
      (∀ t : Nat, ∀ m, ms[t]? = some m → (∀ k, m ≠ .q k) → slot s' m = i + t) ∧
      (∀ m, m ∉ ms → slot s' m = slot s m) := by
  induction ms generalizing i s with
  | nil => exact ⟨s, rfl, by simp [qIdx], by simp, fun _ _ => rfl⟩
  | cons m ms ih =>
    obtain ⟨hm, hnd'⟩ := List.nodup_cons.1 hnd
    have main : ∀ s1 : StaPar, s1.qs.length + (qIdx ms (i + 1)).length ≤ 100 →
        (∀ m', m' ≠ m → slot s1 m' = slot s m') → ((∀ k, m ≠ .q k) → slot s1 m = i) →
        parseLoop (m :: ms) i s = parseLoop ms (i + 1) s1 →
        s1.qs ++ qIdx ms (i + 1) = s.qs ++ qIdx (m :: ms) i →
        ∃ s', parseLoop (m :: ms) i s = .ok s' ∧ s'.qs = s.qs ++ qIdx (m :: ms) i ∧
          (∀ t : Nat, ∀ m', (m :: ms)[t]? = some m' → (∀ k, m' ≠ .q k) → slot s' m' = i + t) ∧
          (∀ m', m' ∉ m :: ms → slot s' m' = slot s m') := by
      intro s1 h1 h2 h3 h4 h5
      obtain ⟨s', g1, g2, g3, g4⟩ := ih (i + 1) s1 h1 hnd'
      refine ⟨s', h4.trans g1, g2.trans h5, ?_, ?_⟩
      · intro t m' ht hnq
        cases t with
        | zero =>
          have : m = m' := by simpa using ht
          subst this
          rw [g4 m hm, h3 hnq]; simp
        | succ t =>
          rw [g3 t m' (by simpa using ht) hnq]; push_cast; ring
      · intro m' hm'
        rw [List.mem_cons, not_or] at hm'
        rw [g4 m' hm'.2, h2 m' hm'.1]
    cases m with
    | q k =>
      have hlen : s.qs.length < 100 := by simp [qIdx] at hq; omega
      refine main { s with qs := s.qs ++ [(i, k)] } (by simp [qIdx] at hq ⊢; omega) ?_ (fun h => absurd rfl (h k)) ?_ ?_
      · intro m' _; cases m' <;> rfl
      · simp [parseLoop, hlen]
      · simp [qIdx]
    | num => exact main { s with num := i } (by simpa [qIdx] using hq) (by intro m' hm'; cases m' <;> first | rfl | exact absurd rfl hm') (fun _ => rfl) rfl (by simp [qIdx])
    | min => exact main { s with min := i } (by simpa [qIdx] using hq) (by intro m' hm'; cases m' <;> first | rfl | exact absurd rfl hm') (fun _ => rfl) rfl (by simp [qIdx])
    | max => exact main { s with max := i } (by simpa [qIdx] using hq) (by intro m' hm'; cases m' <;> first | rfl | exact absurd rfl hm') (fun _ => rfl) rfl (by simp [qIdx])
    | rng => exact main { s with rng := i } (by simpa [qIdx] using hq) (by intro m' hm'; cases m' <;> first | rfl | exact absurd rfl hm') (fun _ => rfl) rfl (by simp [qIdx])
    | iqr => exact main { s with iqr := i } (by simpa [qIdx] using hq) (by intro m' hm'; cases m' <;> first | rfl | exact absurd rfl hm') (fun _ => rfl) rfl (by simp [qIdx])
    | avg => exact main { s with avg := i } (by simpa [qIdx] using hq) (by intro m' hm'; cases m' <;> first | rfl | exact absurd rfl hm') (fun _ => rfl) rfl (by simp [qIdx])
    | std => exact main { s with std := i } (by simpa [qIdx] using hq) (by intro m' hm'; cases m' <;> first | rfl | exact absurd rfl hm') (fun _ => rfl) rfl (by simp [qIdx])
    | skw => exact main { s with skw := i } (by simpa [qIdx] using hq) (by intro m' hm'; cases m' <;> first | rfl | exact absurd rfl hm') (fun _ => rfl) rfl (by simp [qIdx])
    | krt => exact main { s with krt := i } (by simpa [qIdx] using hq) (by intro m' hm'; cases m' <;> first | rfl | exact absurd rfl hm') (fun _ => rfl) rfl (by simp [qIdx])

/-- Requested metrics as the parameter parser can deliver them. -/
def Valid (ms : List Sta) : Prop := ∀ k, Sta.q k ∈ ms → 1 ≤ k ∧ k ≤ 99

theorem qIdx_length (ms : List Sta) (i : Int) (hnd : ms.Nodup) (hv : Valid ms) :
    (qIdx ms i).length ≤ 100 := by
  have h1 : ((qIdx ms i).map Prod.snd).Nodup := by
    clear hv
    induction ms generalizing i with
    | nil => simp [qIdx]
    | cons m ms ih =>
      obtain ⟨hm, hnd'⟩ := List.nodup_cons.1 hnd
      have := ih (i + 1) hnd'
      cases m with
      | q k =>
        simp only [qIdx, List.map_cons, List.nodup_cons]
        refine ⟨?_, this⟩
        intro hk
        obtain ⟨⟨j, k'⟩, hjk, rfl⟩ := List.mem_map.1 hk
        obtain ⟨t, ht, _⟩ := (qIdx_mem ms (i + 1) j k').1 hjk
        exact hm (List.mem_of_getElem? ht)
      | _ => simpa [qIdx] using this
  have h2 : (qIdx ms i).map Prod.snd ⊆ List.range 100 := by
    intro k hk
    obtain ⟨⟨j, k'⟩, hjk, rfl⟩ := List.mem_map.1 hk
    obtain ⟨t, ht, _⟩ := (qIdx_mem ms i j k').1 hjk
    have := hv k' (List.mem_of_getElem? ht)
    simp only [List.mem_range]; omega
  have := (List.subperm_of_subset h1 h2).length_le
  simpa using this

/-- A sequence of writes. -/
def puts : List (Int × Out Int) → List Int → Out (List Int)
  | [], b => .ok b
  | w :: ws, b => (put w.1 w.2 b).bind fun b => puts ws b

theorem put_ok (i : Int) (v : Out Int) (b : List Int)
    (h : i = -1 ∨ (0 ≤ i ∧ i < b.length ∧ ∃ x, v = .ok x)) :
    ∃ b', put i v b = .ok b' ∧ b'.length = b.length ∧ (∀ j : Nat, (j : Int) ≠ i → b'[j]? = b[j]?) ∧
      (∀ x, 0 ≤ i → v = .ok x → b'[i.toNat]? = some x) := by
  rcases h with rfl | ⟨h1, h2, x, rfl⟩
  · exact ⟨b, rfl, rfl, fun _ _ => rfl, fun _ h => by omega⟩
  · refine ⟨b.set i.toNat x, ?_, by simp, ?_, ?_⟩
    · simp only [put, Out.bind]
      rw [if_pos (by omega), if_pos h2]
    · intro j hj
      rw [List.getElem?_set_ne]
      omega
    · rintro y _ ⟨⟩
      rw [List.getElem?_set_self]
      omega

theorem puts_ok (ws : List (Int × Out Int)) (b : List Int)
    (h : ∀ w ∈ ws, w.1 = -1 ∨ (0 ≤ w.1 ∧ w.1 < b.length ∧ ∃ x, w.2 = .ok x)) :
    ∃ b', puts ws b = .ok b' ∧ b'.length = b.length ∧
      (∀ j : Nat, (∀ w ∈ ws, (j : Int) ≠ w.1) → b'[j]? = b[j]?) ∧
      (∀ pre w post x, ws = pre ++ w :: post → 0 ≤ w.1 → w.2 = .ok x → (∀ w' ∈ post, w'.1 ≠ w.1) →
        b'[w.1.toNat]? = some x) := by
  induction ws generalizing b with
  | nil => exact ⟨b, rfl, rfl, fun _ _ => rfl, by simp⟩
  | cons w ws ih =>
    obtain ⟨b1, p1, p2, p3, p4⟩ := put_ok w.1 w.2 b (h w (by simp))
    obtain ⟨b', g1, g2, g3, g4⟩ := ih b1 (by
      intro w' hw'
      rw [p2]
      exact h w' (by simp [hw']))
    refine ⟨b', by simp [puts, p1, Out.bind, g1], g2.trans p2, ?_, ?_⟩
    · intro j hj
      rw [g3 j fun w' hw' => hj w' (by simp [hw']), p3 j (hj w (by simp))]
    · intro pre w0 post x he hw0 hx hpost
      cases pre with
      | nil =>
        simp only [List.nil_append, List.cons.injEq] at he
        obtain ⟨rfl, rfl⟩ := he
        rw [g3 w.1.toNat, p4 x hw0 hx]
        intro w' hw'
        have := hpost w' hw'
        omega
      | cons p pre =>
        simp only [List.cons_append, List.cons.injEq] at he
        exact g4 pre w0 post x he.2 hw0 hx hpost

theorem puts_append (ws ws' : List (Int × Out Int)) (b : List Int) :
    puts (ws ++ ws') b = (puts ws b).bind fun b => puts ws' b := by
  induction ws generalizing b with
  | nil => rfl
  | cons w ws ih =>
    simp only [List.cons_append, puts]
    cases put w.1 w.2 b with
    | ok b1 => simp only [Out.bind]; exact ih b1
    | exit => rfl
    | ub => rfl

/-- The writes of the quantiles. -/
noncomputable def qWrites (E : Env) (a : Acc) (qs : List (Int × Nat)) : List (Int × Out Int) :=
  qs.map fun p => (p.1, shortOf (some (quantile E a p.2)))

theorem quantLoop_puts (E : Env) (a : Acc) (qs : List (Int × Nat)) (b b' : List Int) (q25 q75 : Int)
    (hi : ∀ p ∈ qs, 0 ≤ p.1) (h : puts (qWrites E a qs) b = .ok b')
    (h25 : q25 = -32768 ∨ shortOf (some (quantile E a 25)) = .ok q25)
    (h75 : q75 = -32768 ∨ shortOf (some (quantile E a 75)) = .ok q75) :
    ∃ r25 r75, quantLoop E a qs (b, q25, q75) = .ok (b', r25, r75) ∧
      (r25 = -32768 ∨ shortOf (some (quantile E a 25)) = .ok r25) ∧
      (r75 = -32768 ∨ shortOf (some (quantile E a 75)) = .ok r75) := by
  induction qs generalizing b q25 q75 with
  | nil =>
    simp only [qWrites, List.map_nil, puts, Out.ok.injEq] at h
    subst h
    exact ⟨q25, q75, rfl, h25, h75⟩
  | cons p qs ih =>
    obtain ⟨i, k⟩ := p
    have hi0 : 0 ≤ i := hi (i, k) (by simp)
    simp only [qWrites, List.map_cons, puts] at h
    unfold quantLoop
    cases hv : shortOf (some (quantile E a k)) with
    | ok v =>
      rw [hv] at h
      simp only [Out.bind]
      by_cases hl : i < b.length
      · have e : put i (.ok v) b = .ok (b.set i.toNat v) := by
          simp only [put, Out.bind]
          rw [if_pos (by omega), if_pos hl]
        rw [e] at h
        simp only [Out.bind] at h
        rw [if_pos ⟨hi0, hl⟩]
        apply ih
        · exact fun p hp => hi p (by simp [hp])
        · exact h
        · by_cases hk : k = 25
          · subst hk; right; simpa using hv
          · rw [if_neg hk]; exact h25
        · by_cases hk : k = 75
          · subst hk; right; simpa using hv
          · rw [if_neg hk]; exact h75
      · have e : put i (.ok v) b = .ub := by
          simp only [put, Out.bind]
          rw [if_pos (by omega), if_neg hl]
        rw [e] at h
        simp [Out.bind] at h
    | exit => rw [hv] at h; simp [put, Out.bind, show i > -1 by omega] at h
    | ub => rw [hv] at h; simp [put, Out.bind, show i > -1 by omega] at h

/-- All writes of the metrics except the inter-quartile range, in the order of the code. -/
noncomputable def writes (E : Env) (s : StaPar) (a : Acc) : List (Int × Out Int) :=
  [(s.num, .ok (wrapShort a.n)), (s.min, .ok a.mini), (s.max, .ok a.maxi),
    (s.rng, .ok (wrapShort (a.maxi - a.mini))), (s.avg, shortOf (some a.mean)),
    (s.std, shortOf (standdev E.rd a.var a.n)), (s.skw, shortOf (skewScaled E.rd a)),
    (s.krt, shortOf (kurtScaled E.rd a))] ++ qWrites E a s.qs

theorem stmWrite_eq (E : Env) (s : StaPar) (a : Acc) (b b' : List Int) (hi : ∀ p ∈ s.qs, 0 ≤ p.1)
    (v : Out Int)
    (hv : s.iqr = -1 ∨ ∃ q25 q75, shortOf (some (quantile E a 25)) = .ok q25 ∧
      shortOf (some (quantile E a 75)) = .ok q75 ∧ v = .ok (wrapShort (q75 - q25)))
    (h : puts (writes E s a ++ [(s.iqr, v)]) b = .ok b') :
    stmWrite E s a b = .ok b' := by
  rw [puts_append, writes, puts_append] at h
  have bind_ok : ∀ {α β : Type} (o : Out α) (f : α → Out β) (r : β), o.bind f = .ok r →
      ∃ x, o = .ok x ∧ f x = .ok r := by
    intro α β o f r h
    cases o with
    | ok x => exact ⟨x, rfl, h⟩
    | exit => cases h
    | ub => cases h
  obtain ⟨b9, h9, hl⟩ := bind_ok _ _ _ h
  obtain ⟨b8, h8, hq⟩ := bind_ok _ _ _ h9
  obtain ⟨r25, r75, hr, h25, h75⟩ := quantLoop_puts E a s.qs b8 b9 (-32768) (-32768) hi hq
    (Or.inl rfl) (Or.inl rfl)
  simp only [puts] at h8 hl
  obtain ⟨c1, d1, h8⟩ := bind_ok _ _ _ h8
  obtain ⟨c2, d2, h8⟩ := bind_ok _ _ _ h8
  obtain ⟨c3, d3, h8⟩ := bind_ok _ _ _ h8
  obtain ⟨c4, d4, h8⟩ := bind_ok _ _ _ h8
  obtain ⟨c5, d5, h8⟩ := bind_ok _ _ _ h8
  obtain ⟨c6, d6, h8⟩ := bind_ok _ _ _ h8
  obtain ⟨c7, d7, h8⟩ := bind_ok _ _ _ h8
  obtain ⟨c8, d8, h8⟩ := bind_ok _ _ _ h8
  simp only [Out.ok.injEq] at h8
  subst h8
  obtain ⟨c10, d10, hl⟩ := bind_ok _ _ _ hl
  simp only [Out.ok.injEq] at hl
  subst hl
  unfold stmWrite
  rw [d1]; simp only [Out.bind]
  rw [d2]; simp only
  rw [d3]; simp only
  rw [d4]; simp only
  rw [d5]; simp only
  rw [d6]; simp only
  rw [d7]; simp only
  rw [d8]; simp only
  rw [hr]; simp only [putIqr]
  rcases hv with hv | ⟨q25, q75, g1, g2, rfl⟩
  · rw [hv] at d10 ⊢
    rw [if_neg (by omega)]
    simpa [put] using d10
  · split
    · have e1 : (if r25 = -32768 then shortOf (some (quantile E a 25)) else .ok r25) = .ok q25 := by
        split
        · exact g1
        · next hne => rw [← g1]; exact (h25.resolve_left hne).symm
      have e2 : (if r75 = -32768 then shortOf (some (quantile E a 75)) else .ok r75) = .ok q75 := by
        split
        · exact g2
        · next hne => rw [← g2]; exact (h75.resolve_left hne).symm
      rw [e1, e2]
      exact d10
    · next hneg =>
      simp only [put, if_neg hneg, Out.ok.injEq] at d10
      rw [d10]

/-- Value the code writes for a metric. -/
noncomputable def metricOut (E : Env) (a : Acc) : Sta → Out Int
  | .num => .ok (wrapShort a.n)
  | .min => .ok a.mini
  | .max => .ok a.maxi
  | .rng => .ok (wrapShort (a.maxi - a.mini))
  | .avg => shortOf (some a.mean)
  | .std => shortOf (standdev E.rd a.var a.n)
  | .skw => shortOf (skewScaled E.rd a)
  | .krt => shortOf (kurtScaled E.rd a)
  | .q k => shortOf (some (quantile E a k))
  | .iqr => (shortOf (some (quantile E a 25))).bind fun q25 =>
      (shortOf (some (quantile E a 75))).bind fun q75 => .ok (wrapShort (q75 - q25))

/-- The layers after the metrics were written: each holds the value of its own metric. -/
theorem stm_layers (E : Env) (metrics : List Sta) (hnd : metrics.Nodup) (hv : Valid metrics)
    (hne : metrics ≠ []) (a : Acc) (b : List Int) (hb : b.length = metrics.length)
    (hok : ∀ m ∈ metrics, ∃ x, metricOut E a m = .ok x) :
    ∃ s b', parseSta metrics = .ok s ∧ stmWrite E s a b = .ok b' ∧ b'.length = b.length ∧
      ∀ (t : Nat) m, metrics[t]? = some m → ∃ x, metricOut E a m = .ok x ∧ b'[t]? = some x := by
  obtain ⟨s, h1, h2, h3, h4⟩ := parseLoop_ok metrics 0 ⟨0, -1, -1, -1, -1, -1, -1, -1, -1, []⟩
    (by simpa using qIdx_length metrics 0 hnd hv) hnd
  have hlen : 0 < metrics.length := List.length_pos_iff.2 hne
  have hqs : s.qs = qIdx metrics 0 := by simpa using h2
  -- what a slot can be
  have hslot : ∀ m, (∀ k, m ≠ .q k) → (m ∈ metrics ∧ 0 ≤ slot s m ∧ slot s m < metrics.length ∧
      metrics[(slot s m).toNat]? = some m) ∨
      (m ∉ metrics ∧ (slot s m = -1 ∨ (m = .num ∧ slot s m = 0))) := by
    intro m hm
    by_cases hmem : m ∈ metrics
    · left
      obtain ⟨t, ht⟩ := List.getElem?_of_mem hmem
      have := h3 t m ht hm
      have hl : t < metrics.length := by
        by_contra hc
        rw [List.getElem?_eq_none (by omega)] at ht
        cases ht
      refine ⟨hmem, by omega, by omega, ?_⟩
      rw [this]
      simpa using ht
    · right
      refine ⟨hmem, ?_⟩
      rw [h4 m hmem]
      cases m <;> simp [slot]
  set W := writes E s a ++ [(s.iqr, metricOut E a .iqr)] with hW
  have hWmem : ∀ w ∈ W, (∃ m, (∀ k, m ≠ .q k) ∧ w = (slot s m, metricOut E a m)) ∨
      (∃ k, (w.1, k) ∈ s.qs ∧ w.2 = metricOut E a (.q k)) := by
    intro w hw
    simp only [hW, writes, List.mem_append, List.mem_cons, List.not_mem_nil, or_false, qWrites,
      List.mem_map] at hw
    rcases hw with ((rfl | rfl | rfl | rfl | rfl | rfl | rfl | rfl) | ⟨p, hp, rfl⟩) | rfl
    · exact Or.inl ⟨.num, by simp, rfl⟩
    · exact Or.inl ⟨.min, by simp, rfl⟩
    · exact Or.inl ⟨.max, by simp, rfl⟩
    · exact Or.inl ⟨.rng, by simp, rfl⟩
    · exact Or.inl ⟨.avg, by simp, rfl⟩
    · exact Or.inl ⟨.std, by simp, rfl⟩
    · exact Or.inl ⟨.skw, by simp, rfl⟩
    · exact Or.inl ⟨.krt, by simp, rfl⟩
    · exact Or.inr ⟨p.2, hp, rfl⟩
    · exact Or.inl ⟨.iqr, by simp, rfl⟩
  have hWok : ∀ w ∈ W, w.1 = -1 ∨ (0 ≤ w.1 ∧ w.1 < b.length ∧ ∃ x, w.2 = .ok x) := by
    intro w hw
    rcases hWmem w hw with ⟨m, hm, rfl⟩ | ⟨k, hk, hk2⟩
    · rcases hslot m hm with ⟨g1, g2, g3, _⟩ | ⟨_, g2 | ⟨rfl, g2⟩⟩
      · exact Or.inr ⟨g2, by rw [hb]; exact g3, hok m g1⟩
      · exact Or.inl g2
      · refine Or.inr ⟨by simp only [g2]; decide, by simp only [g2, hb]; omega, _, rfl⟩
    · rw [hqs] at hk
      obtain ⟨t, ht, hj⟩ := (qIdx_mem metrics 0 w.1 k).1 hk
      have hl : t < metrics.length := by
        by_contra hc
        rw [List.getElem?_eq_none (by omega)] at ht
        cases ht
      refine Or.inr ⟨by omega, by omega, ?_⟩
      rw [hk2]
      exact hok _ (List.mem_of_getElem? ht)
  obtain ⟨b', p1, p2, _, p4⟩ := puts_ok W b hWok
  refine ⟨s, b', h1, ?_, p2, ?_⟩
  · refine stmWrite_eq E s a b b' ?_ (metricOut E a .iqr) ?_ p1
    · intro p hp
      rw [hqs] at hp
      obtain ⟨t, _, hj⟩ := (qIdx_mem metrics 0 p.1 p.2).1 hp
      omega
    · rcases hslot .iqr (by simp) with ⟨g1, _⟩ | ⟨_, g2 | ⟨g2, _⟩⟩
      · right
        obtain ⟨x, hx⟩ := hok _ g1
        simp only [metricOut] at hx ⊢
        cases e1 : shortOf (some (quantile E a 25)) with
        | ok q25 =>
          cases e2 : shortOf (some (quantile E a 75)) with
          | ok q75 => exact ⟨q25, q75, rfl, rfl, rfl⟩
          | exit => rw [e1, e2] at hx; cases hx
          | ub => rw [e1, e2] at hx; cases hx
        | exit => rw [e1] at hx; cases hx
        | ub => rw [e1] at hx; cases hx
      · exact Or.inl g2
      · cases g2
  · intro t m ht
    obtain ⟨x, hx⟩ := hok m (List.mem_of_getElem? ht)
    refine ⟨x, hx, ?_⟩
    have hl : t < metrics.length := by
      by_contra hc
      rw [List.getElem?_eq_none (by omega)] at ht
      cases ht
    -- no other write goes to layer t, except possibly the first one
    have hother : ∀ w ∈ W.tail, w.1 = (t : Int) → w.2 = metricOut E a m ∨ False := by
      intro w hw hwt
      left
      have hw' : w ∈ W := List.mem_of_mem_tail hw
      have htail : ∀ m', w = (slot s m', metricOut E a m') → True := fun _ _ => trivial
      simp only [hW, writes, qWrites, List.cons_append, List.nil_append, List.tail_cons, List.mem_cons,
        List.mem_append, List.mem_map, List.not_mem_nil, or_false] at hw
      have key : ∀ m', (∀ k, m' ≠ .q k) → m' ≠ .num → w = (slot s m', metricOut E a m') →
          w.2 = metricOut E a m := by
        intro m' hnq hnum he
        rcases hslot m' hnq with ⟨_, _, _, g4⟩ | ⟨_, g2 | ⟨g2, _⟩⟩
        · have : (slot s m').toNat = t := by rw [he] at hwt; simp only at hwt; omega
          rw [this, ht] at g4
          cases g4
          rw [he]
        · rw [he] at hwt; simp only at hwt; omega
        · exact absurd g2 hnum
      rcases hw with rfl | rfl | rfl | rfl | rfl | rfl | rfl | ⟨p, hp, rfl⟩ | rfl
      · exact key .min (by simp) (by simp) rfl
      · exact key .max (by simp) (by simp) rfl
      · exact key .rng (by simp) (by simp) rfl
      · exact key .avg (by simp) (by simp) rfl
      · exact key .std (by simp) (by simp) rfl
      · exact key .skw (by simp) (by simp) rfl
      · exact key .krt (by simp) (by simp) rfl
      · rw [hqs] at hp
        obtain ⟨t', ht', hj⟩ := (qIdx_mem metrics 0 p.1 p.2).1 hp
        have : t' = t := by simp only at hwt; omega
        subst this
        rw [ht] at ht'
        cases ht'
        rfl
      · exact key .iqr (by simp) (by simp) rfl
    -- take the last write to layer t
    have hlast : ∃ (pre : List (Int × Out Int)) (w : Int × Out Int) (post : List (Int × Out Int)),
        W = pre ++ w :: post ∧ w.1 = (t : Int) ∧ w.2 = .ok x ∧ ∀ w' ∈ post, w'.1 ≠ (t : Int) := by
      have hcons : W = W.head (by simp [hW, writes]) :: W.tail := (List.cons_head_tail _).symm
      by_cases hex : ∃ w ∈ W.tail, w.1 = (t : Int)
      · -- last in the tail
        have : ∀ L : List (Int × Out Int), (∃ w ∈ L, w.1 = (t : Int)) →
            ∃ (pre : List (Int × Out Int)) (w : Int × Out Int) (post : List (Int × Out Int)),
              L = pre ++ w :: post ∧ w.1 = (t : Int) ∧ ∀ w' ∈ post, w'.1 ≠ (t : Int) := by
          intro L
          induction L with
          | nil => rintro ⟨w, hw, _⟩; cases hw
          | cons y L ih =>
            intro hL
            by_cases hL' : ∃ w ∈ L, w.1 = (t : Int)
            · obtain ⟨pre, w, post, e1, e2, e3⟩ := ih hL'
              exact ⟨y :: pre, w, post, by rw [e1]; rfl, e2, e3⟩
            · push Not at hL'
              obtain ⟨w, hw, hwt⟩ := hL
              rcases List.mem_cons.1 hw with rfl | hw
              · exact ⟨[], w, L, rfl, hwt, hL'⟩
              · exact absurd hwt (hL' w hw)
        obtain ⟨pre, w, post, e1, e2, e3⟩ := this W.tail hex
        refine ⟨W.head (by simp [hW, writes]) :: pre, w, post, ?_, e2, ?_, e3⟩
        · rw [List.cons_append, ← e1]; exact hcons
        · have := hother w (by rw [e1]; simp) e2
          rw [← hx]; exact this.resolve_right id
      · push Not at hex
        -- then the metric is the count
        have hm : m = .num := by
          by_contra hmn
          have hin : ∃ w ∈ W.tail, w.1 = (t : Int) := by
            by_cases hq : ∃ k, m = .q k
            · obtain ⟨k, rfl⟩ := hq
              refine ⟨((t : Int), shortOf (some (quantile E a k))), ?_, rfl⟩
              have : ((t : Int), k) ∈ s.qs := by
                rw [hqs]; exact (qIdx_mem metrics 0 t k).2 ⟨t, ht, by simp⟩
              simp only [hW, writes, qWrites, List.cons_append, List.nil_append, List.tail_cons,
                List.mem_cons, List.mem_append, List.mem_map]
              right; right; right; right; right; right; right; left
              exact ⟨_, this, rfl⟩
            · push Not at hq
              have hs := h3 t m ht hq
              rw [zero_add] at hs
              cases m with
              | num => exact absurd rfl hmn
              | q k => exact absurd rfl (hq k)
              | min => exact ⟨(s.min, metricOut E a .min), by simp [hW, writes, metricOut], hs⟩
              | max => exact ⟨(s.max, metricOut E a .max), by simp [hW, writes, metricOut], hs⟩
              | rng => exact ⟨(s.rng, metricOut E a .rng), by simp [hW, writes, metricOut], hs⟩
              | avg => exact ⟨(s.avg, metricOut E a .avg), by simp [hW, writes, metricOut], hs⟩
              | std => exact ⟨(s.std, metricOut E a .std), by simp [hW, writes, metricOut], hs⟩
              | skw => exact ⟨(s.skw, metricOut E a .skw), by simp [hW, writes, metricOut], hs⟩
              | krt => exact ⟨(s.krt, metricOut E a .krt), by simp [hW, writes, metricOut], hs⟩
              | iqr => exact ⟨(s.iqr, metricOut E a .iqr), by simp [hW, writes], hs⟩
          obtain ⟨w, hw, hwt⟩ := hin
          exact hex w hw hwt
        subst hm
        have hs := h3 t .num ht (by simp)
        rw [zero_add] at hs
        refine ⟨[], W.head (by simp [hW, writes]), W.tail, by rw [List.nil_append]; exact hcons, ?_, ?_, hex⟩
        · simpa [hW, writes, slot] using hs
        · rw [← hx]; simp [hW, writes, metricOut]
    obtain ⟨pre, w, post, e1, e2, e3, e4⟩ := hlast
    have := p4 pre w post x e1 (by omega) e3 (by rw [e2]; exact e4)
    rw [e2] at this
    simpa using this

/-! ## C42 -/

/-- The valid values of a time series. -/
def valid (nodata : Int) (series : List Int) : List Int := series.filter (· ≠ nodata)

theorem metricOut_exact (quant : List Int → Nat → ℝ) (m : Sta) (vs : List Int)
    (hs : Shorts vs) (hne : vs ≠ []) (hf : MetricFits quant m vs) :
    ∃ r, metricOut ⟨id, quant⟩ (accAll id vs acc0) m = .ok r ∧ IsMetric quant m vs r := by
  have hgt : (accAll id vs acc0).n > 0 := by
    rw [(accAll_basic id vs).1]; exact List.length_pos_iff.2 hne
  by_cases hm : m = .iqr
  · subst hm
    obtain ⟨⟨a, ha, b, hb, f1, f2, f3⟩, f4⟩ := hf
    have a1 : (-32768 : ℝ) ≤ a := by exact_mod_cast (hs a ha).1
    have a2 : (b : ℝ) ≤ 32767 := by exact_mod_cast (hs b hb).2
    have hq : (accAll id vs acc0).q = vs := (accAll_basic id vs).2
    obtain ⟨x, hx1, hx2⟩ := shortOf_intPart (quant (vs.insertionSort (· ≤ ·)) 25) (by linarith) (by linarith)
    obtain ⟨y, hy1, hy2⟩ := shortOf_intPart (quant (vs.insertionSort (· ≤ ·)) 75) (by linarith) (by linarith)
    refine ⟨wrapShort (y - x), ?_, x, y, hx2, hy2, wrapShort_eq ?_⟩
    · simp only [metricOut, quantile, hq, hx1, hy1, Out.bind]
    · have hab := f4 a ha b hb
      have bnd : ∀ (z : Int) (q : ℝ), IntPart q z → (a : ℝ) ≤ q → q ≤ b → a ≤ z ∧ z ≤ b := by
        intro z q hz h1 h2
        unfold IntPart at hz
        split at hz
        · next h0 =>
          constructor
          · have : (a : ℝ) < ((z + 1 : Int) : ℝ) := by push_cast; linarith [hz.2]
            have : a < z + 1 := by exact_mod_cast this
            omega
          · have : (z : ℝ) ≤ b := by linarith [hz.1]
            exact_mod_cast this
        · next h0 =>
          constructor
          · have : (a : ℝ) ≤ z := by linarith [hz.1]
            exact_mod_cast this
          · have : ((z - 1 : Int) : ℝ) < b := by push_cast; linarith [hz.2]
            have : z - 1 < b := by exact_mod_cast this
            omega
      obtain ⟨x1, x2⟩ := bnd x _ hx2 f1 (by linarith)
      obtain ⟨y1, y2⟩ := bnd y _ hy2 (by linarith) f3
      have hxy : x ≤ y := by
        unfold IntPart at hx2 hy2
        by_contra hc
        have hc' : (y : ℝ) + 1 ≤ x := by exact_mod_cast (by omega : y + 1 ≤ x)
        have int0 : (x : ℝ) < 1 → (x : ℝ) ≤ 0 := fun h => by
          have : x < 1 := by exact_mod_cast h
          exact_mod_cast (by omega : x ≤ 0)
        split at hx2 <;> split at hy2
        · linarith [hx2.1, hx2.2, hy2.1, hy2.2]
        · linarith [hx2.1, hx2.2, hy2.1, hy2.2]
        · next h1 h2 => linarith [int0 (by linarith [hx2.2]), hy2.2]
        · linarith [hx2.1, hx2.2, hy2.1, hy2.2]
      omega
  · obtain ⟨r, h1, h2⟩ := foldValue_exact quant m 0 vs hs hne (by cases m <;> first | exact hf | exact absurd rfl hm)
    refine ⟨r, ?_, by cases m <;> first | exact h2 | exact absurd rfl hm⟩
    unfold foldValue at h1
    rw [if_pos hgt] at h1
    cases m <;> first | exact h1 | exact absurd rfl hm

theorem stm_run (E : Env) (metrics : List Sta) (hnd : metrics.Nodup) (hv : Valid metrics)
    (hne : metrics ≠ []) (nodata : Int) (series : List Int) (b : List Int)
    (hb : b.length = metrics.length) (hval : valid nodata series ≠ [])
    (hok : ∀ m ∈ metrics, ∃ x, metricOut E (accAll E.rd (valid nodata series) acc0) m = .ok x) :
    ∃ s b', parseSta metrics = .ok s ∧ tsaStm E s nodata true series b = .ok b' ∧
      b'.length = metrics.length ∧ ∀ (t : Nat) m, metrics[t]? = some m →
        ∃ x, metricOut E (accAll E.rd (valid nodata series) acc0) m = .ok x ∧ b'[t]? = some x := by
  obtain ⟨s, b', h1, h2, h3, h4⟩ := stm_layers E metrics hnd hv hne _ b hb hok
  refine ⟨s, b', h1, ?_, h3.trans hb, h4⟩
  have hgt : (accAll E.rd (valid nodata series) acc0).n > 0 := by
    rw [(accAll_basic E.rd _).1]; exact List.length_pos_iff.2 hval
  unfold tsaStm
  have he : stmLoop E.rd nodata series acc0 = accAll E.rd (valid nodata series) acc0 :=
    stmLoop_eq E.rd nodata series acc0
  simp only [Bool.not_true, Bool.false_eq_true, if_false, he, if_pos hgt, h2]

/-- C42 (partial: exact arithmetic; metrics requested once each; results that exist and fit into 16
bits): the layer of each requested metric, at the position in which it was requested, holds that
statistic of exactly the valid values of the series. -/
theorem c42_metrics_partial (quant : List Int → Nat → ℝ) (metrics : List Sta) (hnd : metrics.Nodup)
    (hv : Valid metrics) (hne : metrics ≠ []) (nodata : Int) (series : List Int) (hs : Shorts series)
    (hval : valid nodata series ≠ []) (b : List Int) (hb : b.length = metrics.length)
    (hf : ∀ m ∈ metrics, MetricFits quant m (valid nodata series)) :
    ∃ s b', parseSta metrics = .ok s ∧ tsaStm ⟨id, quant⟩ s nodata true series b = .ok b' ∧
      b'.length = metrics.length ∧ ∀ (t : Nat) m, metrics[t]? = some m →
        ∃ r, b'[t]? = some r ∧ IsMetric quant m (valid nodata series) r := by
  have hs' : Shorts (valid nodata series) := fun v hv => hs v (List.mem_filter.1 hv).1
  obtain ⟨s, b', h1, h2, h3, h4⟩ := stm_run ⟨id, quant⟩ metrics hnd hv hne nodata series b hb hval
    (fun m hm => by
      obtain ⟨r, hr, _⟩ := metricOut_exact quant m _ hs' hval (hf m hm)
      exact ⟨r, hr⟩)
  refine ⟨s, b', h1, h2, h3, fun t m ht => ?_⟩
  obtain ⟨x, g1, g2⟩ := h4 t m ht
  obtain ⟨r, hr, hm⟩ := metricOut_exact quant m _ hs' hval (hf m (List.mem_of_getElem? ht))
  rw [hr] at g1
  cases g1
  exact ⟨x, g2, hm⟩

/-- The hypotheses of `c42_metrics_partial` can be met, with several metrics. -/
example : ([Sta.max, .q 50, .num, .min] : List Sta).Nodup ∧ Valid [.max, .q 50, .num, .min] ∧
    valid (-9999) [5, -9999, 9] = [5, 9] ∧
    ∀ m ∈ ([Sta.max, .q 50, .num, .min] : List Sta), MetricFits (fun _ _ => 7) m [5, 9] := by
  refine ⟨by decide, by intro k hk; simp at hk; omega, rfl, ?_⟩
  intro m hm
  simp only [List.mem_cons, List.not_mem_nil, or_false] at hm
  rcases hm with rfl | rfl | rfl | rfl
  · trivial
  · exact ⟨5, by simp, 9, by simp, by norm_num, by norm_num⟩
  · simp [MetricFits, Fits]
  · trivial

/-- C42 (partial: the average only, at most 65536 valid values): with `double` arithmetic, the layer of
the average is the integer part of the mean, or, if the mean is a whole number, possibly one closer to
zero. -/
theorem c42_average_partial (E : Env) (hd : Double E.rd) (nodata : Int) (series : List Int)
    (hs : Shorts series) (hn : series.length ≤ 65536) (hval : valid nodata series ≠ []) (x : Int) :
    ∃ s r, parseSta [.avg] = .ok s ∧ tsaStm E s nodata true series [x] = .ok [r] ∧
      (IntPart (mean (reals (valid nodata series))) r ∨
        ∃ k : Int, k ≠ 0 ∧ mean (reals (valid nodata series)) = k ∧ r = k - k.sign) := by
  have hs' : Shorts (valid nodata series) := fun v hv => hs v (List.mem_filter.1 hv).1
  obtain ⟨r, hr, h2⟩ := average_round hd _ hs' hval ((List.length_filter_le _ _).trans hn)
  obtain ⟨s, b', g1, g2, g3, g4⟩ := stm_run E [.avg] (by decide) (by intro k hk; simp at hk) (by simp) nodata
    series [x] rfl hval (by intro m hm; simp at hm; subst hm; exact ⟨r, hr⟩)
  obtain ⟨y, e1, e2⟩ := g4 0 .avg rfl
  simp only [metricOut, hr, Out.ok.injEq] at e1
  subst e1
  refine ⟨s, r, g1, ?_, h2⟩
  match b', g3, e2 with
  | [z], _, e2 =>
    simp at e2
    rw [g2, e2]

/-- C42: a series without a valid value, and every masked pixel, gives nodata in all layers, whatever the
arithmetic and the requested metrics. -/
theorem c42_nodata (E : Env) (s : StaPar) (nodata : Int) (mask : Bool) (series b : List Int)
    (h : mask = false ∨ ∀ v ∈ series, v = nodata) :
    tsaStm E s nodata mask series b = .ok (List.replicate b.length nodata) := by
  have hm : (b.map fun _ => nodata) = List.replicate b.length nodata := by simp
  unfold tsaStm
  cases mask with
  | false => simp [hm]
  | true =>
    have h := h.resolve_left (by simp)
    have hval : valid nodata series = [] := by
      apply List.filter_eq_nil_iff.2
      intro v hv
      simpa using h v hv
    have he : stmLoop E.rd nodata series acc0 = acc0 := by
      rw [stmLoop_eq]
      have : (series.filter (· ≠ nodata)) = [] := hval
      rw [this]
      rfl
    have hn : acc0.n = 0 := rfl
    simp [he, hn, hm]

example : ∃ v ∈ ([-9999, -9999] : List Int), v = -9999 := ⟨-9999, by simp, rfl⟩

/-- C42 (partial: exact arithmetic, as in `c42_metrics_partial`): the metrics do not depend on the
order of the observations. -/
theorem c42_order_partial (quant : List Int → Nat → ℝ) (metrics : List Sta) (hnd : metrics.Nodup)
    (hv : Valid metrics) (hne : metrics ≠ []) (nodata : Int) (series series' : List Int)
    (hp : series.Perm series') (hs : Shorts series)
    (hval : valid nodata series ≠ []) (b : List Int) (hb : b.length = metrics.length)
    (hf : ∀ m ∈ metrics, MetricFits quant m (valid nodata series)) :
    ∃ s b', parseSta metrics = .ok s ∧ tsaStm ⟨id, quant⟩ s nodata true series b = .ok b' ∧
      tsaStm ⟨id, quant⟩ s nodata true series' b = .ok b' := by
  have hpv : (valid nodata series).Perm (valid nodata series') := hp.filter _
  have hs' : Shorts (valid nodata series) := fun v hv => hs v (List.mem_filter.1 hv).1
  have hs2 : Shorts (valid nodata series') := fun v hv => hs' v (hpv.mem_iff.2 hv)
  have hval2 : valid nodata series' ≠ [] := fun h => hval (by rw [h] at hpv; exact hpv.eq_nil)
  have hsort : (valid nodata series).insertionSort (· ≤ ·) = (valid nodata series').insertionSort (· ≤ ·) :=
    List.Perm.eq_of_pairwise (fun a b _ _ h1 h2 => le_antisymm h1 h2) (List.pairwise_insertionSort _ _)
      (List.pairwise_insertionSort _ _)
      (((List.perm_insertionSort _ _).trans hpv).trans (List.perm_insertionSort _ _).symm)
  have hacc : ∀ m, metricOut ⟨id, quant⟩ (accAll id (valid nodata series) acc0) m =
      metricOut ⟨id, quant⟩ (accAll id (valid nodata series') acc0) m := by
    obtain ⟨a1, a2⟩ := accAll_basic id (valid nodata series)
    obtain ⟨b1, b2⟩ := accAll_basic id (valid nodata series')
    obtain ⟨c1, c2, c3, c4⟩ := accAll_moments _ hval
    obtain ⟨d1, d2, d3, d4⟩ := accAll_moments _ hval2
    obtain ⟨e1, e2⟩ := accAll_min id _ hs' hval
    obtain ⟨f1, f2⟩ := accAll_min id _ hs2 hval2
    have g1 := (accAll_bounds id _ hs').1
    have g2 := (accAll_bounds id _ hs2).1
    have hr : (reals (valid nodata series)).Perm (reals (valid nodata series')) := hpv.map _
    have hmean : mean (reals (valid nodata series)) = mean (reals (valid nodata series')) := by
      simp only [mean, hr.sum_eq, hr.length_eq]
    have hmom : ∀ k, moment k (reals (valid nodata series)) = moment k (reals (valid nodata series')) := by
      intro k
      simp only [moment, hmean]
      exact (hr.map _).sum_eq
    have n1 : (accAll id (valid nodata series) acc0).n = (accAll id (valid nodata series') acc0).n := by
      rw [a1, b1, hpv.length_eq]
    have m1 : (accAll id (valid nodata series) acc0).mini = (accAll id (valid nodata series') acc0).mini :=
      le_antisymm (g1 _ (hpv.mem_iff.2 f1)).1 (g2 _ (hpv.mem_iff.1 e1)).1
    have m2 : (accAll id (valid nodata series) acc0).maxi = (accAll id (valid nodata series') acc0).maxi :=
      le_antisymm (g2 _ (hpv.mem_iff.1 e2)).2 (g1 _ (hpv.mem_iff.2 f2)).2
    have q1 : ∀ k, quantile ⟨id, quant⟩ (accAll id (valid nodata series) acc0) k =
        quantile ⟨id, quant⟩ (accAll id (valid nodata series') acc0) k := by
      intro k
      simp only [quantile, a2, b2, hsort]
    intro m
    cases m <;> simp only [metricOut, n1, m1, m2, q1, skewScaled, kurtScaled, c1, c2, c3, c4, d1, d2, d3, d4,
      hmean, hmom]
  have hok : ∀ m ∈ metrics, ∃ x, metricOut ⟨id, quant⟩ (accAll id (valid nodata series) acc0) m = .ok x :=
    fun m hm => by
      obtain ⟨r, hr, _⟩ := metricOut_exact quant m _ hs' hval (hf m hm)
      exact ⟨r, hr⟩
  obtain ⟨s, b1, g1, g2, g3, g4⟩ := stm_run ⟨id, quant⟩ metrics hnd hv hne nodata series b hb hval hok
  obtain ⟨s', b2, k1, k2, k3, k4⟩ := stm_run ⟨id, quant⟩ metrics hnd hv hne nodata series' b hb hval2
    (fun m hm => by rw [← hacc]; exact hok m hm)
  rw [g1] at k1
  cases k1
  refine ⟨s, b1, g1, g2, ?_⟩
  rw [k2]
  congr 1
  apply List.ext_getElem? 
  intro t
  by_cases ht : t < metrics.length
  · obtain ⟨x, x1, x2⟩ := g4 t metrics[t] (List.getElem?_eq_getElem ht)
    obtain ⟨y, y1, y2⟩ := k4 t metrics[t] (List.getElem?_eq_getElem ht)
    rw [← hacc, x1] at y1
    cases y1
    rw [x2, y2]
  · rw [List.getElem?_eq_none (by omega), List.getElem?_eq_none (by omega)]

/-- C42 fails for the average with `double` arithmetic: the same values in another order give another
metric, for every rounding to nearest. -/
theorem c42_order_violated (E : Env) (hd : Double E.rd) (nodata : Int) (hn : nodata < 0) (x : Int) :
    ∃ s, parseSta [.avg] = .ok s ∧
      tsaStm E s nodata true [7, 7, 4, 1, 4, 1] [x] = .ok [3] ∧
      tsaStm E s nodata true [7, 7, 1, 4, 1, 4] [x] = .ok [4] := by
  obtain ⟨rq, h1, h2⟩ := double_rq hd
  have a : ∀ k : Int, 0 < k → ¬ k = nodata := by intros; omega
  have hv1 : valid nodata [7, 7, 4, 1, 4, 1] = [7, 7, 4, 1, 4, 1] := by simp [valid, a]
  have hv2 : valid nodata [7, 7, 1, 4, 1, 4] = [7, 7, 1, 4, 1, 4] := by simp [valid, a]
  have o1 : shortOf (some (accAll E.rd [7, 7, 4, 1, 4, 1] acc0).mean) = .ok 3 := by
    rw [(mean_meanQ h1 _).1, meanQ_witness h2]
    have : truncR (((9007199254740991 * (2 : ℚ) ^ (-51 : ℤ) : ℚ)) : ℝ) = 3 := by
      apply truncR_of
      unfold IntPart
      rw [if_pos (by push_cast; positivity)]
      constructor <;> norm_num [zpow_neg]
    simp only [shortOf, this]
    norm_num
  have o2 : shortOf (some (accAll E.rd [7, 7, 1, 4, 1, 4] acc0).mean) = .ok 4 := by
    rw [(mean_meanQ h1 _).1, meanQ_witness' h2]
    have : truncR (((4 : ℚ)) : ℝ) = 4 := by
      apply truncR_of
      norm_num [IntPart]
    simp only [shortOf, this]
    norm_num
  have run : ∀ vs r, valid nodata vs = vs → vs ≠ [] →
      shortOf (some (accAll E.rd vs acc0).mean) = .ok r → ∀ s, parseSta [.avg] = .ok s →
      tsaStm E s nodata true vs [x] = .ok [r] := by
    intro vs r hvv hne hr s hs
    obtain ⟨s', b', g1, g2, g3, g4⟩ := stm_run E [.avg] (by decide) (by intro k hk; simp at hk) (by simp) nodata
      vs [x] rfl (by rw [hvv]; exact hne) (by intro m hm; simp at hm; subst hm; rw [hvv]; exact ⟨r, hr⟩)
    rw [hs] at g1
    cases g1
    obtain ⟨y, e1, e2⟩ := g4 0 .avg rfl
    simp only [hvv, metricOut, hr, Out.ok.injEq] at e1
    subst e1
    match b', g3, e2 with
    | [z], _, e2 =>
      simp at e2
      rw [g2, e2]
  exact ⟨_, rfl, run _ 3 hv1 (by simp) o1 _ rfl, run _ 4 hv2 (by simp) o2 _ rfl⟩

/-- C42 fails for a metric that is requested twice: the first of its layers does not hold the metric, it
holds the number of valid values. -/
theorem c42_duplicate_violated (E : Env) (nodata : Int) (series : List Int) (x y : Int)
    (hval : valid nodata series ≠ []) (hs : Shorts series) (hn : series.length ≤ 32767) :
    ∃ s r, parseSta [.min, .min] = .ok s ∧
      tsaStm E s nodata true series [x, y] = .ok [((valid nodata series).length : Int), r] ∧
      r ∈ valid nodata series ∧ ∀ v ∈ valid nodata series, r ≤ v := by
  have hs' : Shorts (valid nodata series) := fun v hv => hs v (List.mem_filter.1 hv).1
  have he : stmLoop E.rd nodata series acc0 = accAll E.rd (valid nodata series) acc0 :=
    stmLoop_eq E.rd nodata series acc0
  have hn1 := (accAll_basic E.rd (valid nodata series)).1
  have hpos : 0 < (valid nodata series).length := List.length_pos_iff.2 hval
  have hle : (valid nodata series).length ≤ 32767 := (List.length_filter_le _ _).trans hn
  have hmin := accAll_min E.rd _ hs' hval
  have hbd := (accAll_bounds E.rd _ hs').1
  refine ⟨⟨0, 1, -1, -1, -1, -1, -1, -1, -1, []⟩, (accAll E.rd (valid nodata series) acc0).mini, rfl, ?_,
    hmin.1, fun v hv => (hbd v hv).1⟩
  have hgt : (accAll E.rd (valid nodata series) acc0).n > 0 := by rw [hn1]; exact hpos
  have hw : wrapShort ((valid nodata series).length : Int) = (valid nodata series).length :=
    wrapShort_eq (by omega)
  unfold tsaStm
  simp only [Bool.not_true, Bool.false_eq_true, if_false, he, if_pos hgt]
  simp [stmWrite, put, Out.bind, quantLoop, putIqr, hn1, hw]

example : valid (-9999) [-9999, 4, 2] = [4, 2] := rfl

/-- C42 fails for the standard deviation of a single valid value, which is the conversion of NaN. -/
theorem c42_std_single_violated (E : Env) (h0 : E.rd 0 = 0) (nodata : Int) (series : List Int) (x : Int)
    (h1 : (valid nodata series).length = 1) :
    ∃ s, parseSta [.std] = .ok s ∧ tsaStm E s nodata true series [x] = .ub := by
  have he : stmLoop E.rd nodata series acc0 = accAll E.rd (valid nodata series) acc0 :=
    stmLoop_eq E.rd nodata series acc0
  have hn1 := (accAll_basic E.rd (valid nodata series)).1
  refine ⟨_, rfl, ?_⟩
  have hgt : (accAll E.rd (valid nodata series) acc0).n > 0 := by rw [hn1, h1]; decide
  unfold tsaStm
  simp only [Bool.not_true, Bool.false_eq_true, if_false, he, if_pos hgt]
  simp [stmWrite, put, Out.bind, standdev, hn1, h1, h0, shortOf]

end Verif.Fold
