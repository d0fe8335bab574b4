import Verif.Udf.Props

/-!
# R
-/

namespace Verif.Udf

open Verif.Str Verif.Udf.Spec

theorem flatMap_filter {α : Type} (k : Nat → Bool) (F : Nat → List α) : ∀ l : List Nat,
    (l.flatMap fun p => if k p = false then [] else F p) = (l.filter k).flatMap F := by
  intro l
  induction l with
  | nil => rfl
  | cons a l ih =>
    rw [List.flatMap_cons, ih]
    cases h : k a with
    | false => rw [List.filter_cons_of_neg (by simp [h])]; simp
    | true => rw [List.filter_cons_of_pos h, List.flatMap_cons]; simp

theorem flatK_get {α β : Type} (F : β → List α) (m : Nat) (h : ∀ i, (F i).length = m) :
    ∀ (K : List β) (i j : Nat) (a : β), K[i]? = some a → j < m → (K.flatMap F)[i * m + j]? = (F a)[j]? := by
  intro K
  induction K with
  | nil => intro i j a hi; simp at hi
  | cons k K ih =>
    intro i j a hi hj
    rw [List.flatMap_cons]
    cases i with
    | zero =>
      simp only [List.getElem?_cons_zero, Option.some.injEq] at hi
      subst hi
      rw [Nat.zero_mul, Nat.zero_add, List.getElem?_append_left (by rw [h]; exact hj)]
    | succ i =>
      rw [List.getElem?_cons_succ] at hi
      rw [List.getElem?_append_right (by rw [h]; nlinarith), h]
      have : (i + 1) * m + j - m = i * m + j := by
        have : (i + 1) * m = i * m + m := by ring
        omega
      rw [this]
      exact ih i j a hi hj

/-- The matrices that the function gets. -/
theorem slices (ims : Nat → Img) (d : Dim) (nodata : Int) (mask : Nat → Bool) :
    ((List.range ((List.range d.nc).countP mask)).map fun j => slice d (toNA nodata (rArrayPixel ims d nodata mask)) j)
      = ((List.range d.nc).filter mask).map (matrixNA ims d nodata) := by
  have hlen : (List.range d.nc).countP mask = ((List.range d.nc).filter mask).length := List.countP_eq_length_filter
  rw [hlen]
  unfold rArrayPixel
  rw [flatMap_filter]
  generalize (List.range d.nc).filter mask = K
  apply List.ext_getElem?
  intro j
  by_cases hj : j < K.length
  · rw [range_map_get _ _ _ hj, List.getElem?_map, List.getElem?_eq_getElem hj]
    simp only [Option.map_some, Option.some.injEq]
    unfold slice matrixNA matrix
    rw [List.map_map]
    apply List.map_congr_left
    intro t ht
    simp only [Function.comp_apply, List.map_map]
    apply List.map_congr_left
    intro b hb
    rw [List.mem_range] at ht hb
    have e : t + d.nt * (b + d.nb * j) = j * (d.nb * d.nt) + (b * d.nt + t) := by ring
    have g1 := flatK_get (rPixelValues (rValue ims d nodata) d) (d.nb * d.nt) (fun p => pixelValues_length _ d p) K j
      (b * d.nt + t) K[j] (List.getElem?_eq_getElem hj) (pix_lt hb ht)
    rw [pixelValues_get _ _ _ _ _ ht hb, rValue_observed, ← e] at g1
    apply getD_some
    unfold toNA
    rw [List.getElem?_map, g1]
    rfl
  · rw [List.getElem?_eq_none (by simp; omega), List.getElem?_eq_none (by simp; omega)]

/-- C198: an R function for pixels is applied to the pixels inside the processing mask, in order; it gets
the time steps and bands of the pixel, with `NA` for nodata. -/
theorem c198_r_pixel (ims : Nat → Img) (d : Dim) (nodata : Int) (mask : Nat → Bool) :
    ((List.range ((List.range d.nc).countP mask)).map fun j => slice d (toNA nodata (rArrayPixel ims d nodata mask)) j)
      = ((List.range (d.ny * d.nx)).filter mask).map (matrixNA ims d nodata) := slices ims d nodata mask

/-- C198, violated: the array that an R function for chunks gets is filled as if rows and columns were
swapped. Its element at row 1 and column 0 is the pixel at row 0 and column 1; element `[t, b, y, x]` is
pixel number `y + ny * x`, not `y * nx + x`. -/
theorem c198_r_chunk_violated (ims : Nat → Img) (d : Dim) (nodata : Int) (mask : Nat → Bool) (t b y x : Nat)
    (ht : t < d.nt) (hb : b < d.nbMain + d.nbAux) (hy : y < d.ny) (hx : x < d.nx) :
    rAt (rArrayChunk ims d nodata mask) d.nt (d.nbMain + d.nbAux) d.ny t b y x
      = some (if mask (y + d.ny * x) = false then nodata else observed (ims t) d.nbMain nodata b (y + d.ny * x)) ∧
    (y = 1 → x = 0 → 2 ≤ d.nx → rAt (rArrayChunk ims d nodata mask) d.nt (d.nbMain + d.nbAux) d.ny t b y x
      = some (if mask (0 * d.nx + 1) = false then nodata else observed (ims t) d.nbMain nodata b (0 * d.nx + 1))) := by
  have hp : y + d.ny * x < d.nc := by
    have := pix_lt hx hy
    unfold Dim.nc
    calc y + d.ny * x = x * d.ny + y := by ring
      _ < d.nx * d.ny := this
      _ = d.ny * d.nx := by ring
  have key := rChunk_get ims d nodata mask t b (y + d.ny * x) ht hb hp
  refine ⟨key, ?_⟩
  rintro rfl rfl -
  have e : 1 + d.ny * 0 = 0 * d.nx + 1 := by ring
  rw [e] at key
  unfold rAt
  rw [e]
  exact key

/-- Reading back what was made for the pixels that were passed. -/
theorem read_flat (keep : Nat → Bool) (nodata : Int) (nband : Nat) (F : Nat → List Int) : ∀ ps : List Nat,
    (∀ p ∈ ps, keep p = true → (F p).length = nband) →
    rRead keep nodata nband ps ((ps.filter keep).map F).flatten
      = some (ps.map fun p => if keep p = true then F p else List.replicate nband nodata) := by
  intro ps
  induction ps with
  | nil => intro _; rfl
  | cons a ps ih =>
    intro h
    have ih' := ih fun p hp => h p (List.mem_cons_of_mem _ hp)
    unfold rRead
    by_cases ha : keep a = true
    · have hl := h a (by simp) ha
      rw [if_pos ha, List.filter_cons_of_pos ha, List.map_cons, List.flatten_cons,
        if_neg (by rw [List.length_append, hl]; omega), List.drop_left' hl, ih', List.take_left' hl, List.map_cons, if_pos ha]
      rfl
    · rw [if_neg ha, List.filter_cons_of_neg ha, ih', List.map_cons, if_neg ha]
      rfl

theorem fromNA_flatten (nodata : Int) : ∀ l : List (List (Option Int)),
    fromNA nodata l.flatten = (l.map (fromNA nodata)).flatten := by
  intro l
  induction l with
  | nil => rfl
  | cons a l ih =>
    rw [List.flatten_cons, List.map_cons, List.flatten_cons, ← ih]
    unfold fromNA
    rw [List.map_append]

theorem mapM_eq {α β : Type} {f : α → Option β} (g : α → β) : ∀ (l : List α), (∀ a ∈ l, f a = some (g a)) →
    l.mapM f = some (l.map g) := by
  intro l
  induction l with
  | nil => intro _; rfl
  | cons a l ih =>
    intro h
    rw [List.mapM_cons, h a (by simp), ih fun x hx => h x (by simp [hx])]
    rfl

/-- C199: if an R function for pixels returns one value per output band, these are the values of the pixel
in the product, with nodata for `NA`; pixels outside of the processing mask are nodata. -/
theorem c199_r_pixel (f : List (List (Option Int)) → Option (List (Option Int))) (ims : Nat → Img) (d : Dim)
    (nodata : Int) (mask : Nat → Bool) (F : Nat → List (Option Int))
    (hf : ∀ p, p < d.ny * d.nx → mask p = true → f (matrixNA ims d nodata p) = some (F p) ∧ (F p).length = d.nband) :
    ∃ out, rRunPixel f ims d nodata mask = .ok out ∧ ∀ p b, p < d.ny * d.nx → b < d.nband →
      out b p = if mask p = true then ((F p).getD b none).getD nodata else nodata := by
  have hK : ∀ p ∈ (List.range d.nc).filter mask, f (matrixNA ims d nodata p) = some (F p) ∧ (F p).length = d.nband := by
    intro p hp
    rw [List.mem_filter, List.mem_range] at hp
    exact hf p hp.1 hp.2
  have hres : rPixel f d nodata ((List.range d.nc).countP mask) (rArrayPixel ims d nodata mask)
      = some (((List.range d.nc).filter mask).map fun p => fromNA nodata (F p)).flatten := by
    unfold rPixel
    rw [slices, List.mapM_map, mapM_eq (f := f ∘ matrixNA ims d nodata) F _ (fun p hp => (hK p hp).1)]
    generalize hKe : (List.range d.nc).filter mask = K at hK ⊢
    cases K with
    | nil => rfl
    | cons a K =>
      simp only [List.map_cons]
      rw [if_pos]
      · rw [fromNA_flatten]
        simp [List.map_map, Function.comp_def]
      · rw [List.all_eq_true]
        intro x hx
        simp only [decide_eq_true_eq]
        have h1 : ∀ x ∈ (a :: K).map F, x.length = d.nband := by
          intro x hx
          obtain ⟨p, hp, rfl⟩ := List.mem_map.1 hx
          exact (hK p hp).2
        rw [h1 x (by simpa using hx), h1 (F a) (by simp)]
  have hread := read_flat mask nodata d.nband (fun p => fromNA nodata (F p)) (List.range d.nc) (by
    intro p hp hm
    unfold fromNA
    rw [List.length_map]
    exact (hf p (List.mem_range.1 hp) hm).2)
  refine ⟨fun b p => (((List.range d.nc).map fun p => if mask p = true then fromNA nodata (F p)
    else List.replicate d.nband nodata).getD p []).getD b nodata, ?_, ?_⟩
  · unfold rRunPixel
    rw [hres]
    simp only [rOut, hread]
  · intro p b hp hb
    simp only
    rw [getD_some [] (range_map_get _ d.nc _ hp)]
    split
    · rename_i hm
      have hl := (hf p hp hm).2
      have hb' : b < (F p).length := by omega
      unfold fromNA
      rw [List.getD_eq_getElem?_getD, List.getElem?_map, List.getElem?_eq_getElem hb', List.getD_eq_getElem?_getD,
        List.getElem?_eq_getElem hb']
      rfl
    · rw [getD_some nodata (by rw [List.getElem?_replicate, if_pos hb])]

theorem read_off (keep : Nat → Bool) (nodata : Int) (nband : Nat) : ∀ (ps : List Nat) (l : List Int) (o : List (List Int)),
    rRead keep nodata nband ps l = some o → ∀ (i p : Nat), ps[i]? = some p → keep p = false →
      o[i]? = some (List.replicate nband nodata) := by
  intro ps
  induction ps with
  | nil => intro l o _ i p hi; simp at hi
  | cons a ps ih =>
    intro l o h i p hi hk
    unfold rRead at h
    have step : ∀ (x : List Int) (q : Option (List (List Int))), q.map (fun r => x :: r) = some o →
        ∃ r, q = some r ∧ o = x :: r := by
      intro x q hq
      cases q with
      | none => cases hq
      | some r => exact ⟨r, rfl, (Option.some.inj hq).symm⟩
    by_cases ha : keep a = true
    · rw [if_pos ha] at h
      split at h
      · cases h
      · obtain ⟨r, h1, rfl⟩ := step _ _ h
        cases i with
        | zero =>
          simp only [List.getElem?_cons_zero, Option.some.injEq] at hi
          subst hi
          rw [ha] at hk
          cases hk
        | succ i =>
          rw [List.getElem?_cons_succ] at hi ⊢
          exact ih _ _ h1 i p hi hk
    · rw [if_neg ha] at h
      obtain ⟨r, h1, rfl⟩ := step _ _ h
      cases i with
      | zero => simp
      | succ i =>
        rw [List.getElem?_cons_succ] at hi ⊢
        exact ih _ _ h1 i p hi hk

/-- C200, partial: with an R function for pixels, whatever it does, pixels outside of the processing mask
are nodata in the product. Missing: Python functions and R functions for chunks. -/
theorem c200_r_partial (f : List (List (Option Int)) → Option (List (Option Int))) (ims : Nat → Img) (d : Dim)
    (nodata : Int) (mask : Nat → Bool) (out : Nat → Nat → Int) (h : rRunPixel f ims d nodata mask = .ok out)
    (p b : Nat) (hp : p < d.ny * d.nx) (hb : b < d.nband) (hm : mask p = false) : out b p = nodata := by
  unfold rRunPixel rOut at h
  split at h
  · cases h
  · split at h
    · cases h
    · rename_i o ho
      cases h
      simp only
      rw [getD_some [] (read_off _ _ _ _ _ _ ho p p (List.getElem?_range hp) hm),
        getD_some nodata (by rw [List.getElem?_replicate, if_pos hb])]

theorem read_all (nodata : Int) (nband : Nat) : ∀ (n s : Nat) (l : List Int), n * nband ≤ l.length →
    ∃ o, rRead (fun _ => true) nodata nband (List.range' s n) l = some o ∧ ∀ i b, i < n → b < nband →
      (o.getD i []).getD b nodata = l.getD (i * nband + b) nodata := by
  intro n
  induction n with
  | zero => intro s l _; exact ⟨[], rfl, fun i b h => by omega⟩
  | succ n ih =>
    intro s l hl
    have e : (n + 1) * nband = n * nband + nband := by ring
    obtain ⟨o, h1, h2⟩ := ih (s + 1) (l.drop nband) (by rw [List.length_drop]; omega)
    refine ⟨l.take nband :: o, ?_, ?_⟩
    · rw [List.range'_succ]
      unfold rRead
      rw [if_pos rfl, if_neg (by omega), h1]
      rfl
    · intro i b hi hb
      cases i with
      | zero =>
        simp only [List.getD_cons_zero, Nat.zero_mul, Nat.zero_add]
        rw [List.getD_eq_getElem?_getD, List.getD_eq_getElem?_getD, List.getElem?_take, if_pos hb]
      | succ i =>
        rw [List.getD_cons_succ, h2 i b (by omega) hb, List.getD_eq_getElem?_getD, List.getD_eq_getElem?_getD,
          List.getElem?_drop]
        congr 2
        ring

/-- Output of R functions for chunks. -/
theorem rChunk_out (g : List (Option Int) → Option (List (Option Int))) (ims : Nat → Img) (d : Dim) (nodata : Int)
    (mask : Nat → Bool) (r : List (Option Int)) (hg : g (toNA nodata (rArrayChunk ims d nodata mask)) = some r)
    (hl : r.length = d.nband * (d.ny * d.nx)) :
    ∃ out, rRunChunk g ims d nodata mask = .ok out ∧ ∀ p b, p < d.ny * d.nx → b < d.nband →
      out b p = (r.getD (b + d.nband * p) none).getD nodata := by
  obtain ⟨o, h1, h2⟩ := read_all nodata d.nband d.nc 0 (fromNA nodata r) (by
    unfold fromNA Dim.nc
    rw [List.length_map, hl]
    apply le_of_eq
    ring)
  refine ⟨fun b p => (o.getD p []).getD b nodata, ?_, ?_⟩
  · unfold rRunChunk rChunk
    rw [hg]
    simp only [rOut, Option.map_some, List.range_eq_range', h1]
  · intro p b hp hb
    simp only
    rw [h2 p b hp hb]
    unfold fromNA
    have e : p * d.nband + b = b + d.nband * p := by ring
    rw [e, List.getD_eq_getElem?_getD, List.getElem?_map, List.getD_eq_getElem?_getD]
    cases r[b + d.nband * p]? <;> rfl

/-- C199, violated: element `[b, 1, 0]` (row 1, column 0) of the result of an R function for chunks is
written to row 0 and column 1 of the product. -/
theorem c199_r_chunk_violated (g : List (Option Int) → Option (List (Option Int))) (ims : Nat → Img) (d : Dim)
    (nodata : Int) (mask : Nat → Bool) (r : List (Option Int))
    (hg : g (toNA nodata (rArrayChunk ims d nodata mask)) = some r) (hl : r.length = d.nband * (d.ny * d.nx))
    (hy : 2 ≤ d.ny) (hx : 2 ≤ d.nx) :
    ∃ out, rRunChunk g ims d nodata mask = .ok out ∧ ∀ b, b < d.nband →
      out b (0 * d.nx + 1) = (r.getD (b + d.nband * (1 + d.ny * 0)) none).getD nodata := by
  obtain ⟨out, h1, h2⟩ := rChunk_out g ims d nodata mask r hg hl
  refine ⟨out, h1, fun b hb => ?_⟩
  rw [h2 _ b (by nlinarith) hb]
  congr 2
  ring

/-- C199: nevertheless, if an R function for chunks treats every pixel by itself, the product is as with the
function for pixels: both ways swap rows and columns. -/
theorem c199_r_pixelwise (g : List (Option Int) → Option (List (Option Int))) (ims : Nat → Img) (d : Dim)
    (nodata : Int) (mask : Nat → Bool) (r : List (Option Int)) (F : List (List (Option Int)) → List (Option Int))
    (hg : g (toNA nodata (rArrayChunk ims d nodata mask)) = some r) (hl : r.length = d.nband * (d.ny * d.nx))
    (hF : ∀ y x b, y < d.ny → x < d.nx → b < d.nband →
      r.getD (b + d.nband * (y + d.ny * x)) none
        = (F ((List.range d.nt).map fun t => (List.range (d.nbMain + d.nbAux)).map fun b =>
            (toNA nodata (rArrayChunk ims d nodata mask)).getD (t + d.nt * (b + (d.nbMain + d.nbAux) * (y + d.ny * x))) none)).getD b none) :
    ∃ out, rRunChunk g ims d nodata mask = .ok out ∧ ∀ p b, p < d.ny * d.nx → b < d.nband → mask p = true →
      out b p = ((F (matrixNA ims d nodata p)).getD b none).getD nodata := by
  obtain ⟨out, h1, h2⟩ := rChunk_out g ims d nodata mask r hg hl
  refine ⟨out, h1, fun p b hp hb hm => ?_⟩
  rw [h2 p b hp hb]
  have hy0 : 0 < d.ny := by
    rcases Nat.eq_zero_or_pos d.ny with h | h
    · rw [h] at hp; omega
    · exact h
  have hy : p % d.ny < d.ny := Nat.mod_lt _ hy0
  have hx : p / d.ny < d.nx := Nat.div_lt_of_lt_mul hp
  have e : p % d.ny + d.ny * (p / d.ny) = p := Nat.mod_add_div p d.ny
  have k := hF (p % d.ny) (p / d.ny) b hy hx hb
  rw [e] at k
  rw [k]
  suffices hmat : ((List.range d.nt).map fun t => (List.range (d.nbMain + d.nbAux)).map fun b =>
      (toNA nodata (rArrayChunk ims d nodata mask)).getD (t + d.nt * (b + (d.nbMain + d.nbAux) * p)) none)
        = matrixNA ims d nodata p by rw [hmat]
  unfold matrixNA matrix
  rw [List.map_map]
  apply List.map_congr_left
  intro t ht
  simp only [Function.comp_apply, List.map_map]
  apply List.map_congr_left
  intro c hc
  apply getD_some
  unfold toNA
  have := rChunk_get ims d nodata mask t c p (List.mem_range.1 ht) (List.mem_range.1 hc) hp
  rw [if_neg (by rw [hm]; simp)] at this
  rw [List.getElem?_map]
  have this' : (rArrayChunk ims d nodata mask)[t + d.nt * (c + (d.nbMain + d.nbAux) * p)]? = _ := this
  rw [this']
  rfl

/-- C200, violated: with an R function for chunks, values for pixels outside of the processing mask are
written into the product. -/
theorem c200_r_chunk_violated (g : List (Option Int) → Option (List (Option Int))) (ims : Nat → Img) (d : Dim)
    (nodata : Int) (mask : Nat → Bool) (r : List (Option Int))
    (hg : g (toNA nodata (rArrayChunk ims d nodata mask)) = some r) (hl : r.length = d.nband * (d.ny * d.nx))
    (p b : Nat) (hp : p < d.ny * d.nx) (hb : b < d.nband) (_hm : mask p = false) (v : Int)
    (hv : r[b + d.nband * p]? = some (some v)) (hn : v ≠ nodata) :
    ∃ out, rRunChunk g ims d nodata mask = .ok out ∧ out b p ≠ nodata := by
  obtain ⟨out, h1, h2⟩ := rChunk_out g ims d nodata mask r hg hl
  refine ⟨out, h1, ?_⟩
  rw [h2 p b hp hb, getD_some none hv]
  exact hn

/-- C201, violated: an error in R code, which is reported by a null pointer, is not noticed: the null
pointer is dereferenced. -/
theorem c201_r_violated (f : List (List (Option Int)) → Option (List (Option Int)))
    (g : List (Option Int) → Option (List (Option Int))) (ims : Nat → Img) (d : Dim) (nodata : Int) (mask : Nat → Bool) :
    ((∃ p, p < d.ny * d.nx ∧ mask p = true ∧ f (matrixNA ims d nodata p) = none) → rRunPixel f ims d nodata mask = .ub) ∧
    (g (toNA nodata (rArrayChunk ims d nodata mask)) = none → rRunChunk g ims d nodata mask = .ub) := by
  constructor
  · rintro ⟨p, hp, hm, hf⟩
    unfold rRunPixel rPixel
    rw [slices, mapM_none ⟨matrixNA ims d nodata p,
      List.mem_map.2 ⟨p, List.mem_filter.2 ⟨(List.mem_range.2 hp : p ∈ List.range d.nc), hm⟩, rfl⟩, hf⟩]
    rfl
  · intro hg
    unfold rRunChunk rChunk
    rw [hg]
    rfl

theorem read_short (keep : Nat → Bool) (nodata : Int) (nband : Nat) : ∀ (ps : List Nat) (l : List Int),
    l.length < nband * ps.countP keep → rRead keep nodata nband ps l = none := by
  intro ps
  induction ps with
  | nil => intro l h; simp at h
  | cons a ps ih =>
    intro l h
    unfold rRead
    by_cases ha : keep a = true
    · rw [if_pos ha]
      by_cases hl : l.length < nband
      · rw [if_pos hl]
      · rw [if_neg hl, ih (l.drop nband) (by
          rw [List.countP_cons_of_pos ha] at h
          have : nband * (ps.countP keep + 1) = nband * ps.countP keep + nband := by ring
          rw [List.length_drop]
          omega)]
        rfl
    · rw [if_neg ha, ih l (by rw [List.countP_cons_of_neg ha] at h; exact h)]
      rfl

theorem c201_short_aux (f : List (List (Option Int)) → Option (List (Option Int))) (ims : Nat → Img) (d : Dim)
    (nodata : Int) (mask : Nat → Bool) (l : List Int)
    (h : rPixel f d nodata ((List.range d.nc).countP mask) (rArrayPixel ims d nodata mask) = some l)
    (hs : l.length < d.nband * (List.range d.nc).countP mask) : rRunPixel f ims d nodata mask = .ub := by
  unfold rRunPixel
  rw [h]
  simp only [rOut, read_short _ _ _ _ _ hs]

/-- C201, violated: if an R function for pixels returns fewer values than there are output bands, memory
behind the end of the result is read. -/
theorem c201_short_violated (f : List (List (Option Int)) → Option (List (Option Int))) (ims : Nat → Img) (d : Dim)
    (nodata : Int) (mask : Nat → Bool) (k : Nat) (hk : k < d.nband)
    (hf : ∀ m, ∃ r, f m = some r ∧ r.length = k) (p : Nat) (hp : p < d.ny * d.nx) (hm : mask p = true) :
    rRunPixel f ims d nodata mask = .ub := by
  choose F hF hl using hf
  have hmem : p ∈ (List.range d.nc).filter mask := List.mem_filter.2 ⟨List.mem_range.2 hp, hm⟩
  have hres : rPixel f d nodata ((List.range d.nc).countP mask) (rArrayPixel ims d nodata mask)
      = some (fromNA nodata (((List.range d.nc).filter mask).map fun p => F (matrixNA ims d nodata p)).flatten) := by
    unfold rPixel
    rw [slices, List.mapM_map, mapM_eq (f := f ∘ matrixNA ims d nodata) (fun p => F (matrixNA ims d nodata p)) _
      (fun p _ => hF _)]
    generalize (List.range d.nc).filter mask = K at hmem
    cases K with
    | nil => simp at hmem
    | cons a K =>
      simp only [List.map_cons]
      rw [if_pos]
      rw [List.all_eq_true]
      intro x hx
      have h1 : ∀ x ∈ (a :: K).map (fun p => F (matrixNA ims d nodata p)), x.length = k := by
        intro x hx
        obtain ⟨p, _, rfl⟩ := List.mem_map.1 hx
        exact hl _
      simp only [decide_eq_true_eq]
      rw [h1 x (by simpa using hx), hl]
  apply c201_short_aux f ims d nodata mask _ hres
  unfold fromNA
  rw [List.length_map, List.countP_eq_length_filter]
  generalize (List.range d.nc).filter mask = K at hmem
  have : ∀ K : List Nat, ((K.map fun p => F (matrixNA ims d nodata p)).flatten).length = k * K.length := by
    intro K
    induction K with
    | nil => rfl
    | cons a K ih =>
      rw [List.map_cons, List.flatten_cons, List.length_append, ih, hl, List.length_cons]
      ring
  rw [this]
  have : 0 < K.length := List.length_pos_of_mem hmem
  exact Nat.mul_lt_mul_of_pos_right hk this

end Verif.Udf
