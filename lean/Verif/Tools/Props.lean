import Verif.Tools.Model
import Verif.Tile.Props
import Verif.Qai.Props
import Verif.Index.Lemmas

/-!
# C120-C123: the small tools
-/

namespace Verif.Tools

open Verif.Str (Out)
open Verif.Tile.Spec

/-! ## C120: histogram -/

theorem count_ok (nodata : ℤ) (vs : List ℤ) (h : ∀ v ∈ vs, -32768 ≤ v ∧ v ≤ 32767) (c : ℕ → ℕ) :
    ∃ c', count nodata vs c = .ok c' ∧ ∀ k : ℕ, c' k = c k + if (k : ℤ) - 32768 = nodata then 0 else vs.count ((k : ℤ) - 32768) := by
  induction vs generalizing c with
  | nil => exact ⟨c, rfl, fun k => by simp⟩
  | cons v vs ih =>
    have hv := h v (by simp)
    have ih := ih fun w hw => h w (by simp [hw])
    unfold count
    by_cases h0 : v = nodata
    · rw [if_pos h0]
      obtain ⟨c', h1, h2⟩ := ih c
      refine ⟨c', h1, fun k => ?_⟩
      rw [h2 k]
      by_cases hk : (k : ℤ) - 32768 = nodata
      · rw [if_pos hk, if_pos hk]
      · rw [if_neg hk, if_neg hk, List.count_cons_of_ne (by rw [h0]; exact fun e => hk e.symm)]
    · rw [if_neg h0, if_pos (by unfold offset length; omega)]
      obtain ⟨c', h1, h2⟩ := ih fun k => if (k : ℤ) = v + offset then c k + 1 else c k
      refine ⟨c', h1, fun k => ?_⟩
      rw [h2 k]
      show (if (k : ℤ) = v + (32767 + 1) then c k + 1 else c k) + _ = _
      by_cases hk : (k : ℤ) - 32768 = nodata
      · rw [if_pos hk, if_pos hk, if_neg (by omega)]
      · rw [if_neg hk, if_neg hk]
        by_cases hv' : (k : ℤ) = v + (32767 + 1)
        · rw [if_pos hv']
          have e : v = (k : ℤ) - 32768 := by omega
          rw [e, List.count_cons_self]
          omega
        · rw [if_neg hv', List.count_cons_of_ne (by omega)]

theorem short_int {n : ℤ} (h : -32768 ≤ n ∧ n ≤ 32767) : Index.short (n : ℚ) = .ok n := by
  have a : ((-32768 : ℤ) : ℚ) ≤ n := by exact_mod_cast h.1
  have b : (n : ℚ) ≤ ((32767 : ℤ) : ℚ) := by exact_mod_cast h.2
  push_cast at a b
  rw [Index.short_ok (by linarith) (by linarith), Index.truncQ_eq]
  simp

/-- C120, partial: for a nodata value that is a 16-bit number, the histogram has one row for each value that occurs, other than the nodata value, in increasing order, with the number of
pixels that have this value; so the counts add up to the number of pixels that are not nodata. An image without nodata value is refused. Missing: other nodata values. -/
theorem c120_histogram_partial (nodata : ℤ) (hn : -32768 ≤ nodata ∧ nodata ≤ 32767) (pixels : List ℤ) (h : ∀ v ∈ pixels, -32768 ≤ v ∧ v ≤ 32767) :
    histogram none pixels = .exit ∧
    ∃ rows, histogram (some (nodata : ℚ)) pixels = .ok rows ∧
      (rows.map Prod.fst).Pairwise (· < ·) ∧
      (∀ v n, (v, n) ∈ rows ↔ v ∈ pixels ∧ v ≠ nodata ∧ n = pixels.count v) ∧
      (rows.map Prod.snd).sum = (pixels.filter fun v => decide (v ≠ nodata)).length := by
  refine ⟨rfl, ?_⟩
  obtain ⟨c, h1, h2⟩ := count_ok nodata pixels h fun _ => 0
  have e : histogram (some (nodata : ℚ)) pixels = .ok (((List.range length).filter fun k => decide (c k ≠ 0)).map fun k : ℕ => ((k : ℤ) - offset, c k)) := by
    unfold histogram
    simp only [short_int hn, Out.bind, h1]
  have hsorted : (((((List.range length).filter fun k => decide (c k ≠ 0)).map fun k : ℕ => ((k : ℤ) - offset, c k))).map Prod.fst).Pairwise (· < ·) := by
    rw [List.map_map, List.pairwise_map]
    exact (List.pairwise_lt_range.filter _).imp fun {a b} hab => by show (a : ℤ) - offset < b - offset; omega
  have hmem : ∀ v n, (v, n) ∈ (((List.range length).filter fun k => decide (c k ≠ 0)).map fun k : ℕ => ((k : ℤ) - offset, c k)) ↔
      v ∈ pixels ∧ v ≠ nodata ∧ n = pixels.count v := by
    intro v n
    rw [List.mem_map]
    constructor
    · rintro ⟨k, hk, hkv⟩
      rw [List.mem_filter, List.mem_range, decide_eq_true_iff] at hk
      rw [Prod.mk.injEq] at hkv
      obtain ⟨rfl, rfl⟩ := hkv
      have hc := h2 k
      rw [Nat.zero_add] at hc
      show (k : ℤ) - 32768 ∈ pixels ∧ (k : ℤ) - 32768 ≠ nodata ∧ c k = pixels.count ((k : ℤ) - 32768)
      by_cases h0 : (k : ℤ) - 32768 = nodata
      · rw [if_pos h0] at hc
        exact absurd hc hk.2
      · rw [if_neg h0] at hc
        refine ⟨?_, h0, hc⟩
        have := hk.2
        rw [hc] at this
        exact List.count_pos_iff.1 (Nat.pos_of_ne_zero this)
    · rintro ⟨a, b, rfl⟩
      have hv := h v a
      refine ⟨(v + 32768).toNat, ?_, ?_⟩
      · rw [List.mem_filter, List.mem_range, decide_eq_true_iff]
        refine ⟨by unfold length; omega, ?_⟩
        rw [h2, Nat.zero_add, show ((v + 32768).toNat : ℤ) - 32768 = v by omega, if_neg b]
        exact (List.count_pos_iff.2 a).ne'
      · rw [Prod.mk.injEq]
        refine ⟨by show ((v + 32768).toNat : ℤ) - (32767 + 1) = v; omega, ?_⟩
        rw [h2, Nat.zero_add, show ((v + 32768).toNat : ℤ) - 32768 = v by omega, if_neg b]
  refine ⟨_, e, hsorted, hmem, ?_⟩
  generalize (((List.range length).filter fun k => decide (c k ≠ 0)).map fun k : ℕ => ((k : ℤ) - offset, c k)) = rows at hsorted hmem
  -- sum of the counts
  have key : ∀ (rows : List (ℤ × ℕ)) (px : List ℤ), (rows.map Prod.fst).Pairwise (· < ·) →
      (∀ v n, (v, n) ∈ rows ↔ v ∈ px ∧ n = px.count v) → (rows.map Prod.snd).sum = px.length := by
    intro rows
    induction rows with
    | nil =>
      intro px _ hm
      have : px = [] := by
        rw [List.eq_nil_iff_forall_not_mem]
        intro v hv
        have := (hm v (px.count v)).2 ⟨hv, rfl⟩
        cases this
      rw [this]; rfl
    | cons r rows ih =>
      intro px hs hm
      obtain ⟨v, n⟩ := r
      rw [List.map_cons, List.pairwise_cons] at hs
      have hn' := ((hm v n).1 (by simp)).2
      have ih' := ih (px.filter fun w => decide (w ≠ v)) hs.2 (by
        intro w m
        rw [List.mem_filter, decide_eq_true_iff]
        constructor
        · intro hw
          have hne : w ≠ v := by
            have := hs.1 w (List.mem_map.2 ⟨(w, m), hw, rfl⟩)
            exact fun e => by rw [e] at this; exact lt_irrefl _ this
          have := (hm w m).1 (by simp [hw])
          exact ⟨⟨this.1, hne⟩, by rw [this.2, List.count_filter (by simpa using hne)]⟩
        · rintro ⟨⟨a, b⟩, hc⟩
          rw [List.count_filter (by simpa using b)] at hc
          have := (hm w m).2 ⟨a, hc⟩
          rcases List.mem_cons.1 this with h | h
          · rw [Prod.mk.injEq] at h; exact absurd h.1 b
          · exact h)
      rw [List.map_cons, List.sum_cons, ih']
      show n + _ = _
      rw [hn']
      clear * -
      induction px with
      | nil => rfl
      | cons a px ih =>
        by_cases ha : a = v
        · subst ha
          rw [List.count_cons_self, List.filter_cons_of_neg (by simp), List.length_cons]
          omega
        · rw [List.count_cons_of_ne ha, List.filter_cons_of_pos (by simpa using ha), List.length_cons, List.length_cons]
          omega
  refine key rows _ hsorted ?_
  intro v n
  rw [hmem, List.mem_filter, decide_eq_true_iff]
  constructor
  · rintro ⟨a, b, c'⟩
    exact ⟨⟨a, b⟩, by rw [c', List.count_filter (by simpa using b)]⟩
  · rintro ⟨⟨a, b⟩, c'⟩
    rw [List.count_filter (by simpa using b)] at c'
    exact ⟨a, b, c'⟩

/-- C120, violated: the nodata value is converted to 16 bits. If it is not in this range (for instance 65535, or the smallest `float`), the result is undefined, whatever the image. -/
theorem c120_nodata_violated (nodata : ℚ) (h : 32768 ≤ nodata ∨ nodata ≤ -32769) (pixels : List ℤ) : histogram (some nodata) pixels = .ub := by
  unfold histogram
  simp only [Index.short_ub h, Out.bind]

/-! ## C121: stack -/

/-- C121: which files are stacked: at least two, all with the same number of columns and rows, and in the directory of the output, which has the extension `.vrt`
and does not exist. The result has this number of columns and rows. -/
theorem c121_accepts (vrt there : Bool) (ddst : String) (files : List File) :
    (∃ s, stack vrt there ddst files = some s) ↔
      2 ≤ files.length ∧ vrt = true ∧ there = false ∧ ∃ nx ny, ∀ f ∈ files, f.dname = ddst ∧ f.nx = nx ∧ f.ny = ny := by
  cases files with
  | nil => simp [stack]
  | cons first rest =>
    unfold stack
    simp only
    by_cases h1 : rest = []
    · rw [if_pos h1, h1]; simp
    · rw [if_neg h1]
      have hlen : 2 ≤ (first :: rest).length := by
        have := List.length_pos_iff.2 h1
        rw [List.length_cons]; omega
      by_cases h2 : (!vrt || there) = true
      · rw [if_pos h2]
        constructor
        · rintro ⟨s, hs⟩; cases hs
        · rintro ⟨_, rfl, rfl, _⟩; simp at h2
      · rw [if_neg h2]
        have hv : vrt = true ∧ there = false := by
          cases vrt <;> cases there <;> simp_all
        by_cases h3 : (!rest.all (consistent first)) = true
        · rw [if_pos h3]
          constructor
          · rintro ⟨s, hs⟩; cases hs
          · rintro ⟨_, _, _, nx, ny, h⟩
            exfalso
            rw [Bool.not_eq_true', ← Bool.not_eq_true, List.all_eq_true] at h3
            apply h3
            intro f hf
            have a := h f (by simp [hf])
            have b := h first (by simp)
            unfold consistent
            rw [a.1, a.2.1, a.2.2, b.1, b.2.1, b.2.2]
            simp
        · rw [if_neg h3]
          rw [Bool.not_eq_true', Bool.not_eq_false, List.all_eq_true] at h3
          have hc : ∀ f ∈ rest, f.dname = first.dname ∧ f.nx = first.nx ∧ f.ny = first.ny := by
            intro f hf
            have := h3 f hf
            unfold consistent at this
            simpa [and_assoc] using this
          by_cases h4 : ddst ≠ first.dname
          · rw [if_pos h4]
            constructor
            · rintro ⟨s, hs⟩; cases hs
            · rintro ⟨_, _, _, nx, ny, h⟩
              exact absurd (h first (by simp)).1.symm h4
          · rw [if_neg h4]
            rw [not_not] at h4
            constructor
            · intro _
              refine ⟨hlen, hv.1, hv.2, first.nx, first.ny, ?_⟩
              intro f hf
              rcases List.mem_cons.1 hf with rfl | hf
              · exact ⟨h4.symm, rfl, rfl⟩
              · rw [h4]; exact hc f hf
            · intro _; exact ⟨_, rfl⟩

theorem stack_eq {vrt there : Bool} {ddst : String} {first : File} {rest : List File} {s : Stack} (h : stack vrt there ddst (first :: rest) = some s) :
    s.geotran = first.geotran ∧ s.proj = first.proj ∧ s.bands = order first rest ∧
      (∃ f ∈ first :: rest, s.nx = f.nx ∧ s.ny = f.ny) := by
  unfold stack at h
  simp only at h
  split at h
  · cases h
  split at h
  · cases h
  split at h
  · cases h
  split at h
  · cases h
  rw [Option.some.injEq] at h
  subst h
  exact ⟨rfl, rfl, rfl, _, List.getLast_mem (by simp), rfl, rfl⟩

/-- C121: every band of every file is in the stack, once. If all files have the same number of bands, band `b` of file `f` (counted from 0, of `n` files) is band `b * n + f`
of the stack: all first bands come first. Otherwise, the bands are in the order of the files, and in the order of the bands in each file. The stack has the size of every file. -/
theorem c121_bands (vrt there : Bool) (ddst : String) (files : List File) (s : Stack) (h : stack vrt there ddst files = some s) :
    s.bands.Nodup ∧ (∀ f b, (f, b) ∈ s.bands ↔ ∃ hf : f < files.length, 1 ≤ b ∧ b ≤ files[f].nb) ∧
    (∀ f ∈ files, s.nx = f.nx ∧ s.ny = f.ny) ∧
    (∀ nb, (∀ f ∈ files, f.nb = nb) → ∀ f b, f < files.length → b < nb → s.bands[b * files.length + f]? = some (f, b + 1)) ∧
    ((¬ ∃ nb, ∀ f ∈ files, f.nb = nb) → s.bands.Pairwise fun a b => a.1 < b.1 ∨ a.1 = b.1 ∧ a.2 < b.2) := by
  have hacc := (c121_accepts vrt there ddst files).1 ⟨s, h⟩
  cases files with
  | nil => cases h
  | cons first rest =>
    obtain ⟨e1, e2, e3, g, hg, g1, g2⟩ := stack_eq h
    obtain ⟨_, _, _, nx, ny, hn⟩ := hacc
    have hby : byBand first rest = true ↔ ∀ f ∈ first :: rest, f.nb = first.nb := by
      unfold byBand
      rw [List.all_eq_true]
      simp
    have hget : ∀ f, f < (first :: rest).length → ∃ hf : f < (first :: rest).length, (first :: rest).getD f first = (first :: rest)[f] := by
      intro f hf
      exact ⟨hf, by rw [List.getD_eq_getElem?_getD, List.getElem?_eq_getElem hf]; rfl⟩
    refine ⟨?_, ?_, ?_, ?_, ?_⟩
    · rw [e3]
      unfold order
      simp only
      split
      · refine List.nodup_flatMap.2 ⟨?_, ?_⟩
        · intro b _
          refine List.Nodup.map ?_ List.nodup_range
          intro x y hxy
          exact (Prod.mk.inj hxy).1
        · refine List.nodup_range.imp fun {a b} hab => ?_
          intro x hx hy
          rw [List.mem_map] at hx hy
          obtain ⟨c, _, rfl⟩ := hx
          obtain ⟨d, _, hd⟩ := hy
          rw [Prod.mk.injEq] at hd
          omega
      · refine List.nodup_flatMap.2 ⟨?_, ?_⟩
        · intro b _
          refine List.Nodup.map ?_ List.nodup_range
          intro x y hxy
          have := (Prod.mk.inj hxy).2
          omega
        · refine List.nodup_range.imp fun {a b} hab => ?_
          intro x hx hy
          rw [List.mem_map] at hx hy
          obtain ⟨c, _, rfl⟩ := hx
          obtain ⟨d, _, hd⟩ := hy
          rw [Prod.mk.injEq] at hd
          omega
    · intro f b
      rw [e3]
      unfold order
      simp only
      split
      · rename_i hb
        rw [hby] at hb
        rw [List.mem_flatMap]
        constructor
        · rintro ⟨c, hc, hm⟩
          rw [List.mem_map] at hm
          obtain ⟨d, hd, hm⟩ := hm
          rw [Prod.mk.injEq] at hm
          obtain ⟨rfl, rfl⟩ := hm
          rw [List.mem_range] at hc hd
          refine ⟨hd, by omega, ?_⟩
          rw [hb _ (List.getElem_mem hd)]
          omega
        · rintro ⟨hf, h1, h2⟩
          rw [hb _ (List.getElem_mem hf)] at h2
          refine ⟨b - 1, List.mem_range.2 (by omega), List.mem_map.2 ⟨f, List.mem_range.2 hf, ?_⟩⟩
          rw [Prod.mk.injEq]
          omega
      · rw [List.mem_flatMap]
        constructor
        · rintro ⟨c, hc, hm⟩
          rw [List.mem_map] at hm
          obtain ⟨d, hd, hm⟩ := hm
          rw [Prod.mk.injEq] at hm
          obtain ⟨rfl, rfl⟩ := hm
          rw [List.mem_range] at hc hd
          obtain ⟨hf, he⟩ := hget c hc
          rw [he] at hd
          exact ⟨hf, by omega, by omega⟩
        · rintro ⟨hf, h1, h2⟩
          obtain ⟨_, he⟩ := hget f hf
          refine ⟨f, List.mem_range.2 hf, List.mem_map.2 ⟨b - 1, List.mem_range.2 (by rw [he]; omega), ?_⟩⟩
          rw [Prod.mk.injEq]
          omega
    · intro f hf
      have a := hn f hf
      have b := hn g hg
      rw [g1, g2, a.2.1, a.2.2, b.2.1, b.2.2]
      exact ⟨rfl, rfl⟩
    · intro nb hnb f b hf hb
      have hfirst : first.nb = nb := hnb first (by simp)
      rw [e3]
      unfold order
      simp only
      rw [if_pos (hby.2 fun f hf => by rw [hnb f hf, hfirst]), hfirst]
      generalize (first :: rest).length = n at hf
      clear * - hf hb
      -- position in a list of blocks of the same length
      have key : ∀ m start, b < m → ((List.range m).flatMap fun b => (List.range n).map fun f => (f, start + b + 1))[b * n + f]? = some (f, start + b + 1) := by
        induction b with
        | zero =>
          intro m start hm
          obtain ⟨m, rfl⟩ : ∃ k, m = k + 1 := ⟨m - 1, by omega⟩
          rw [List.range_succ_eq_map, List.flatMap_cons, List.getElem?_append_left (by simpa using hf)]
          simp [hf]
        | succ b ih =>
          intro m start hm
          obtain ⟨m, rfl⟩ : ∃ k, m = k + 1 := ⟨m - 1, by omega⟩
          rw [List.range_succ_eq_map, List.flatMap_cons, List.getElem?_append_right (by simp; nlinarith), List.flatMap_map]
          have e : (b + 1) * n + f - ((List.range n).map fun f => (f, start + 0 + 1)).length = b * n + f := by
            rw [List.length_map, List.length_range, Nat.succ_mul]
            omega
          rw [e]
          have := ih (by omega) m (start + 1) (by omega)
          rw [show start + (b + 1) + 1 = start + 1 + b + 1 by omega, ← this]
          congr 2
          funext k
          congr 1
          funext f
          rw [Prod.mk.injEq]
          exact ⟨rfl, by show start + (k + 1) + 1 = start + 1 + k + 1; omega⟩
      have := key nb 0 hb
      simpa using this
    · intro hne
      rw [e3]
      unfold order
      simp only
      rw [if_neg (by rw [hby]; exact fun h => hne ⟨_, h⟩), List.pairwise_flatMap]
      constructor
      · intro f _
        rw [List.pairwise_map]
        exact List.pairwise_lt_range.imp fun {a b} hab => Or.inr ⟨rfl, by show a + 1 < b + 1; omega⟩
      · refine List.pairwise_lt_range.imp fun {a b} hab => ?_
        intro x hx y hy
        rw [List.mem_map] at hx hy
        obtain ⟨c, _, rfl⟩ := hx
        obtain ⟨d, _, rfl⟩ := hy
        exact Or.inl hab

/-- C121, violated: position and projection of the files are read, but not compared. Files of the same size are stacked whatever they are, and the stack has the position of the first one. -/
theorem c121_position_violated (ddst : String) (a b : File) (ha : a.dname = ddst) (hb : b.dname = ddst) (hx : a.nx = b.nx) (hy : a.ny = b.ny) :
    ∃ s, stack true false ddst [a, b] = some s ∧ s.geotran = a.geotran ∧ s.proj = a.proj := by
  obtain ⟨s, hs⟩ := (c121_accepts true false ddst [a, b]).2 ⟨by simp, rfl, rfl, a.nx, a.ny, by simp [ha, hb, hx, hy]⟩
  obtain ⟨e1, e2, _⟩ := stack_eq hs
  exact ⟨s, hs, e1, e2⟩

end Verif.Tools
