import Verif.Lsm.Spec
import Verif.Ccl.Props
import Verif.Stats.Props
import Verif.Index.Lemmas
import Mathlib.Data.List.Induction
import Mathlib.Data.Finset.Card
import Mathlib.Algebra.BigOperators.Group.Finset.Basic

/-! # The loop over the kernel -/

namespace Verif.Lsm

open Verif.Str (Out)
open Verif.Ccl (Px Image Objects)

/-! ## Positions -/

theorem mem_offsets (r : Nat) (off : Px) :
    off ∈ offsets r ↔ -(r : Int) ≤ off.1 ∧ off.1 ≤ r ∧ -(r : Int) ≤ off.2 ∧ off.2 ≤ r := by
  obtain ⟨x, y⟩ := off
  simp only [offsets, List.mem_flatMap, List.mem_range, List.mem_map, Prod.mk.injEq]
  constructor
  · rintro ⟨i, hi, j, hj, h1, h2⟩
    omega
  · rintro ⟨h1, h2, h3, h4⟩
    exact ⟨(x + r).toNat, by omega, (y + r).toNat, by omega, by omega, by omega⟩

theorem nodup_offsets (r : Nat) : (offsets r).Nodup := by
  unfold offsets
  rw [List.nodup_flatMap]
  constructor
  · intro i _
    refine List.Nodup.map ?_ List.nodup_range
    intro a b h
    simp only [Prod.mk.injEq] at h
    omega
  · refine List.Pairwise.imp ?_ (List.nodup_range (n := 2 * r + 1))
    intro a b hab
    simp only [Function.onFun, List.disjoint_left, List.mem_map, List.mem_range, not_exists, not_and]
    rintro x ⟨j, _, rfl⟩ j' _
    simp only [Prod.mk.injEq]
    omega

theorem length_offsets (r : Nat) : (offsets r).length = (r * 2 + 1) * (r * 2 + 1) := by
  unfold offsets
  rw [List.length_flatMap]
  simp only [List.length_map, List.length_range, List.map_const', List.sum_replicate, smul_eq_mul]
  ring

/-! ## The loop -/

/-- What is done at a position that is not skipped. -/
def add (par : Par) (c : Chunk) (o : Objects) (p : Px) (a : Acc) (off : Px) : Acc :=
  addPatch (o.obj (p + off)) (edges par o.image (p + off) off)
    (register (o.obj (p + off)) (addLog (c.dat (p + off)) (addValue c.nodata (c.dat (p + off)) a)))

/-- The positions that are not skipped. -/
def seenAt (par : Par) (c : Chunk) (o : Objects) (p off : Px) : Bool :=
  !(par.circle && decide (off.1 * off.1 + off.2 * off.2 > (par.radius : Int) * par.radius)) &&
  !(decide ((p + off).1 < 0) || decide ((p + off).2 < 0) || decide ((p + off).1 ≥ c.ny) || decide ((p + off).2 ≥ c.nx)) &&
  usable par c (p + off) && o.image.px (p + off)

theorem ite_four {α : Type} (b1 b2 b3 b4 : Bool) (x a : α) :
    (if b1 = true then a else if b2 = true then a else if (!b3) = true then a else if (!b4) = true then a else x) =
      if (!b1 && !b2 && b3 && b4) = true then x else a := by
  cases b1 <;> cases b2 <;> cases b3 <;> cases b4 <;> rfl

theorem look_eq (par : Par) (c : Chunk) (o : Objects) (p : Px) (a : Acc) (off : Px) :
    look par c o p a off = if seenAt par c o p off then add par c o p a off else a :=
  ite_four _ _ _ _ _ _

theorem foldl_look (par : Par) (c : Chunk) (o : Objects) (p : Px) (l : List Px) (a : Acc) :
    l.foldl (look par c o p) a = (l.filter (seenAt par c o p)).foldl (add par c o p) a := by
  induction l generalizing a with
  | nil => rfl
  | cons x t ih =>
    rw [List.foldl_cons, look_eq, List.filter_cons]
    split <;> simp [ih]

/-- The values at the positions. -/
def valuesAt (c : Chunk) (p : Px) (V : List Px) : List Int := (V.map fun v => c.dat (p + v)).filter (· ≠ c.nodata)

/-- What the variables hold after the positions `V`. -/
structure Summary (par : Par) (c : Chunk) (o : Objects) (p : Px) (V : List Px) (a : Acc) : Prop where
  vals : (a.n, a.mx, a.vx) = Verif.Stats.varLoop ((valuesAt c p V).map fun (x : Int) => (x : ℚ)) (0, 0, 0)
  maxVal : a.maxVal = (valuesAt c p V).foldl max 0
  logs : a.logs = (V.map fun v => c.dat (p + v)).filter (0 < ·)
  nodup : a.uniq.Nodup
  uniq : ∀ l, l ∈ a.uniq ↔ ∃ v ∈ V, o.obj (p + v) = l
  seen : ∀ l, a.seen l = true ↔ l ∈ a.uniq
  area : ∀ l, a.area l = (V.filter fun v => o.obj (p + v) = l).length
  total : a.total = V.length
  perim : ∀ l, a.perim l = ((V.filter fun v => o.obj (p + v) = l).map fun v => edges par o.image (p + v) v).sum
  edge : a.edge = (V.map fun v => edges par o.image (p + v) v).sum

theorem valuesAt_snoc (c : Chunk) (p : Px) (V : List Px) (x : Px) :
    valuesAt c p (V ++ [x]) = valuesAt c p V ++ (if c.dat (p + x) ≠ c.nodata then [c.dat (p + x)] else []) := by
  simp [valuesAt, List.filter_append, List.filter_cons]

theorem summary (par : Par) (c : Chunk) (o : Objects) (p : Px) (V : List Px)
    (h : ∀ v ∈ V, 1 ≤ o.obj (p + v)) :
    Summary par c o p V (V.foldl (add par c o p) (fresh Thread.init)) := by
  induction V using List.reverseRecOn with
  | nil =>
    constructor <;> simp [fresh, Thread.init, Thread.reset, valuesAt, Verif.Stats.varLoop]
  | append_singleton V x ih =>
    have ih := ih fun v hv => h v (by simp [hv])
    have hx : 1 ≤ o.obj (p + x) := h x (by simp)
    rw [List.foldl_append, List.foldl_cons, List.foldl_nil]
    generalize V.foldl (add par c o p) (fresh Thread.init) = a at ih
    obtain ⟨i1, i2, i3, i4, i5, i6, i7, i8, i9, i10⟩ := ih
    -- the parts of the step
    have hv : ∀ a : Acc, (addValue c.nodata (c.dat (p + x)) a).toThread = a.toThread ∧
        (addValue c.nodata (c.dat (p + x)) a).logs = a.logs ∧
        (addValue c.nodata (c.dat (p + x)) a).total = a.total ∧
        (addValue c.nodata (c.dat (p + x)) a).edge = a.edge := by
      intro a; unfold addValue; split <;> simp
    have hl : ∀ a : Acc, (addLog (c.dat (p + x)) a).toThread = a.toThread ∧ (addLog (c.dat (p + x)) a).n = a.n ∧
        (addLog (c.dat (p + x)) a).mx = a.mx ∧ (addLog (c.dat (p + x)) a).vx = a.vx ∧
        (addLog (c.dat (p + x)) a).maxVal = a.maxVal ∧
        (addLog (c.dat (p + x)) a).logs = a.logs ++ (if 0 < c.dat (p + x) then [c.dat (p + x)] else []) ∧
        (addLog (c.dat (p + x)) a).total = a.total ∧ (addLog (c.dat (p + x)) a).edge = a.edge := by
      intro a; unfold addLog; split <;> simp_all
    have hr : ∀ a : Acc, (register (o.obj (p + x)) a).n = a.n ∧ (register (o.obj (p + x)) a).mx = a.mx ∧
        (register (o.obj (p + x)) a).vx = a.vx ∧ (register (o.obj (p + x)) a).maxVal = a.maxVal ∧
        (register (o.obj (p + x)) a).logs = a.logs ∧ (register (o.obj (p + x)) a).total = a.total ∧
        (register (o.obj (p + x)) a).edge = a.edge ∧ (register (o.obj (p + x)) a).area = a.area ∧
        (register (o.obj (p + x)) a).perim = a.perim := by
      intro a; unfold register; split <;> simp
    unfold add
    obtain ⟨v1, v2, v3, v4⟩ := hv a
    have w1 := hl (addValue c.nodata (c.dat (p + x)) a)
    obtain ⟨w1, w2, w3, w4, w5, w6, w7, w8⟩ := w1
    have z := hr (addLog (c.dat (p + x)) (addValue c.nodata (c.dat (p + x)) a))
    have zu : (register (o.obj (p + x)) (addLog (c.dat (p + x)) (addValue c.nodata (c.dat (p + x)) a))).uniq =
        if o.obj (p + x) ∈ a.uniq then a.uniq else a.uniq ++ [o.obj (p + x)] := by
      have : ∀ b : Acc, b.toThread = a.toThread → (register (o.obj (p + x)) b).uniq =
          if o.obj (p + x) ∈ a.uniq then a.uniq else a.uniq ++ [o.obj (p + x)] := by
        intro b hb
        have hs : b.seen (o.obj (p + x)) = a.seen (o.obj (p + x)) := by rw [hb]
        have hu : b.uniq = a.uniq := by rw [hb]
        unfold register
        by_cases hm : o.obj (p + x) ∈ a.uniq
        · have := (i6 _).2 hm
          rw [if_neg (by simp [hs, this]), if_pos hm, hu]
        · have : a.seen (o.obj (p + x)) = false := by
            have := mt (i6 _).1 hm; simpa using this
          rw [if_pos (by simp [hs, this]; omega), if_neg hm, hu]
      exact this _ (w1.trans v1)
    have zs : ∀ l, (register (o.obj (p + x)) (addLog (c.dat (p + x)) (addValue c.nodata (c.dat (p + x)) a))).seen l = true ↔
        a.seen l = true ∨ l = o.obj (p + x) := by
      have : ∀ b : Acc, b.toThread = a.toThread → ∀ l, (register (o.obj (p + x)) b).seen l = true ↔
        a.seen l = true ∨ l = o.obj (p + x) := by
        intro b hb l
        have hs : ∀ k, b.seen k = a.seen k := by intro k; rw [hb]
        unfold register
        split
        · by_cases hk : l = o.obj (p + x) <;> simp [hk, hs]
        · rename_i hn
          rw [hs]
          constructor
          · exact Or.inl
          · rintro (h' | rfl)
            · exact h'
            · simpa [hs, show 0 < o.obj (p + x) by omega] using hn
      exact this _ (w1.trans v1)
    generalize hb : register (o.obj (p + x)) (addLog (c.dat (p + x)) (addValue c.nodata (c.dat (p + x)) a)) = b at z zu zs
    obtain ⟨z1, z2, z3, z4, z5, z6, z7, z8, z9⟩ := z
    have v1a : (addValue c.nodata (c.dat (p + x)) a).area = a.area := by rw [v1]
    have v1p : (addValue c.nodata (c.dat (p + x)) a).perim = a.perim := by rw [v1]
    have w1a : (addLog (c.dat (p + x)) (addValue c.nodata (c.dat (p + x)) a)).area = a.area := by rw [w1, v1]
    have w1p : (addLog (c.dat (p + x)) (addValue c.nodata (c.dat (p + x)) a)).perim = a.perim := by rw [w1, v1]
    rw [w2] at z1; rw [w3] at z2; rw [w4] at z3; rw [w5] at z4; rw [w6, v2] at z5; rw [w7, v3] at z6
    rw [w8, v4] at z7; rw [w1a] at z8; rw [w1p] at z9
    have hne : b.uniq.length ≠ 0 := by
      rw [zu]; split
      · rename_i hm; intro h0; rw [List.length_eq_zero_iff] at h0; rw [h0] at hm; simp at hm
      · simp
    unfold addPatch
    rw [if_neg hne]
    constructor
    · show (b.n, b.mx, b.vx) = _
      rw [z1, z2, z3, valuesAt_snoc]
      unfold addValue
      by_cases hd : c.dat (p + x) ≠ c.nodata
      · simp only [hd, ne_eq, not_false_eq_true, if_true]
        rw [List.map_append, List.map_cons, List.map_nil, Verif.Stats.varLoop_snoc, ← i1]
        simp only [Verif.Stats.varLoop]
        by_cases h0 : a.n = 0 <;> simp [h0]
      · simp only [hd, if_false, List.append_nil]; exact i1
    · show b.maxVal = _
      rw [z4, valuesAt_snoc]
      unfold addValue
      by_cases hd : c.dat (p + x) ≠ c.nodata
      · simp only [hd, ne_eq, not_false_eq_true, if_true]
        rw [List.foldl_append, ← i2]
        simp only [List.foldl_cons, List.foldl_nil]
        split <;> omega
      · simpa only [hd, if_false, List.append_nil] using i2
    · show b.logs = _
      rw [z5, i3, List.map_append, List.filter_append]
      by_cases hd : 0 < c.dat (p + x) <;> simp [hd]
    · show b.uniq.Nodup
      rw [zu]; split
      · exact i4
      · rename_i hm
        rw [List.nodup_append]
        refine ⟨i4, by simp, ?_⟩
        intro y hy z hz
        simp only [List.mem_singleton] at hz
        rintro rfl
        exact hm (hz ▸ hy)
    · intro l
      show l ∈ b.uniq ↔ _
      rw [zu]
      split
      · rename_i hm
        rw [i5]
        constructor
        · rintro ⟨v, hv, he⟩; exact ⟨v, by simp [hv], he⟩
        · rintro ⟨v, hv, he⟩
          simp only [List.mem_append, List.mem_singleton] at hv
          rcases hv with hv | rfl
          · exact ⟨v, hv, he⟩
          · rw [he] at hm; exact (i5 l).1 hm
      · rw [List.mem_append, i5, List.mem_singleton]
        constructor
        · rintro (⟨v, hv, he⟩ | rfl)
          · exact ⟨v, by simp [hv], he⟩
          · exact ⟨x, by simp, rfl⟩
        · rintro ⟨v, hv, he⟩
          simp only [List.mem_append, List.mem_singleton] at hv
          rcases hv with hv | rfl
          · exact Or.inl ⟨v, hv, he⟩
          · exact Or.inr he.symm
    · intro l
      show b.seen l = true ↔ l ∈ b.uniq
      rw [zs, zu, i6]
      split
      · rename_i hm
        constructor
        · rintro (h' | rfl) <;> assumption
        · exact Or.inl
      · simp
    · intro l
      show (if l = o.obj (p + x) then b.area l + 1 else b.area l) = _
      rw [z8, i7, List.filter_append, List.length_append]
      by_cases hk : l = o.obj (p + x)
      · simp [hk]
      · simp [hk, Ne.symm hk]
    · show b.total + 1 = _
      rw [z6, i8]; simp
    · intro l
      show (if l = o.obj (p + x) then b.perim l + _ else b.perim l) = _
      rw [z9, i9, List.filter_append, List.map_append, List.sum_append]
      by_cases hk : l = o.obj (p + x)
      · simp [hk]
      · simp [hk, Ne.symm hk]
    · show b.edge + _ = _
      rw [z7, i10]; simp

end Verif.Lsm
