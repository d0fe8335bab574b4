import Verif.Udf.Lemmas

/-!
# What user code sees, and where its results go
-/

namespace Verif.Udf

open Verif.Str Verif.Udf.Spec

/-- C198: in the array that Python code gets, element `[t, b, y, x]` is band `b` of image `t` at row `y`
and column `x`, or nodata if the pixel is not usable. -/
theorem c198_python (ims : Nat → Img) (d : Dim) (nodata : Int) (t b y x : Nat) (ht : t < d.nt)
    (hb : b < d.nbMain + d.nbAux) (hy : y < d.ny) (hx : x < d.nx) :
    numpyAt (pyArray ims d nodata) (d.nbMain + d.nbAux) d.ny d.nx t b y x
      = some (observed (ims t) d.nbMain nodata b (y * d.nx + x)) := by
  rw [← pyValue_observed]
  exact py_get ims d nodata t b y x ht hb hy hx

/-- C198: the same for time series: element `[t, 0, y, x]` is the value at time `t`. -/
theorem c198_python_tsa (tsi : Nat → Nat → Int) (d : Dim) (t y x : Nat) (ht : t < d.nt) (hy : y < d.ny) (hx : x < d.nx) :
    numpyAt (pyArrayTsa tsi d) 1 d.ny d.nx t 0 y x = some (tsi t (y * d.nx + x)) := by
  unfold numpyAt pyArrayTsa
  have e : ((t * 1 + 0) * d.ny + y) * d.nx + x = t * d.nc + (y * d.nx + x) := by unfold Dim.nc; ring
  rw [e, flat_get _ d.nc (fun _ => by simp) d.nt t _ ht (pix_lt hy hx),
    range_map_get _ d.nc _ (pix_lt hy hx)]

theorem pyPixelIn_matrix (ims : Nat → Img) (d : Dim) (nodata : Int) (y x : Nat) (hy : y < d.ny) (hx : x < d.nx) :
    pyPixelIn d (pyArray ims d nodata) y x = matrix ims d nodata (y * d.nx + x) := by
  unfold pyPixelIn matrix
  apply List.map_congr_left
  intro t ht
  apply List.map_congr_left
  intro b hb
  exact getD_some 0 (c198_python ims d nodata t b y x (List.mem_range.1 ht) (List.mem_range.1 hb) hy hx)

/-- The matrices of all pixels, in the order of the calls. -/
theorem py_args (ims : Nat → Img) (d : Dim) (nodata : Int) :
    ((List.range d.ny).flatMap fun y => (List.range d.nx).map fun x => pyPixelIn d (pyArray ims d nodata) y x)
      = (List.range d.nc).map (matrix ims d nodata) := by
  apply List.ext_getElem?
  intro i
  have hl := flat_length (fun y => (List.range d.nx).map fun x => pyPixelIn d (pyArray ims d nodata) y x) d.nx
    (fun _ => by simp) d.ny
  by_cases hi : i < d.nc
  · have hx0 : 0 < d.nx := by
      rcases Nat.eq_zero_or_pos d.nx with h | h
      · unfold Dim.nc at hi; rw [h] at hi; omega
      · exact h
    have hx : i % d.nx < d.nx := Nat.mod_lt _ hx0
    have hy : i / d.nx < d.ny := Nat.div_lt_of_lt_mul (by rw [Nat.mul_comm]; exact hi)
    have e : i / d.nx * d.nx + i % d.nx = i := by rw [Nat.mul_comm]; exact Nat.div_add_mod i d.nx
    rw [range_map_get _ _ _ hi]
    conv => lhs; rw [← e]
    rw [flat_get _ d.nx (fun _ => by simp) d.ny _ _ hy hx, range_map_get _ _ _ hx, pyPixelIn_matrix _ _ _ _ _ hy hx, e]
  · rw [List.getElem?_eq_none (by rw [hl]; exact Nat.not_lt.1 hi), List.getElem?_eq_none (by simp; omega)]

theorem out_get (F : Nat → Nat → Nat → Int) (d : Dim) (b y x : Nat) (hb : b < d.nband) (hy : y < d.ny) (hx : x < d.nx) :
    ((List.range d.nband).flatMap fun b => (List.range d.ny).flatMap fun y => (List.range d.nx).map fun x => F b y x)[
      b * d.nc + (y * d.nx + x)]? = some (F b y x) := by
  have l1 : ∀ b, ((List.range d.ny).flatMap fun y => (List.range d.nx).map fun x => F b y x).length = d.nc :=
    fun b => flat_length _ _ (fun _ => by simp) _
  rw [flat_get _ d.nc l1 d.nband b _ hb (pix_lt hy hx), flat_get _ d.nx (fun _ => by simp) d.ny y x hy hx,
    range_map_get _ _ _ hx]

/-- C199: the values that a Python function for pixels writes for the pixel at row `y` and column `x` are
the values of that pixel in the product; values that it does not write are nodata. -/
theorem c199_python_pixel (f : List (List Int) → Option (List Int)) (ims : Nat → Img) (d : Dim) (nodata : Int)
    (mask : Nat → Bool) (out : Nat → Nat → Int) (h : pyRunPixel f ims d nodata mask = .ok out)
    (b y x : Nat) (hb : b < d.nband) (hy : y < d.ny) (hx : x < d.nx) :
    ∃ r, f (matrix ims d nodata (y * d.nx + x)) = some r ∧ out b (y * d.nx + x) = r.getD b nodata := by
  unfold pyRunPixel pyPixel at h
  rw [py_args] at h
  cases hm : ((List.range d.nc).map (matrix ims d nodata)).mapM (pyWrap f d nodata) with
  | none => rw [hm] at h; cases h
  | some res =>
    rw [hm] at h
    simp only [pyOut] at h
    split at h
    · cases h
      obtain ⟨-, m2⟩ := mapM_spec hm
      obtain ⟨r, r1, r2⟩ := m2 (y * d.nx + x) _ (range_map_get _ _ _ (pix_lt hy hx))
      unfold pyWrap at r2
      cases hf : f (matrix ims d nodata (y * d.nx + x)) with
      | none => rw [hf] at r2; cases r2
      | some v =>
        rw [hf] at r2
        refine ⟨v, rfl, ?_⟩
        simp only
        rw [getD_some 0 (out_get (fun b y x => (res.getD (y * d.nx + x) []).getD b nodata) d b y x hb hy hx),
          getD_some [] r1]
        have e : r = (List.range d.nband).map fun b => v.getD b nodata := (Option.some.inj r2).symm
        rw [e]
        exact getD_some nodata (range_map_get _ _ _ hb)
    · cases h

/-- C199: element `[b, y, x]` of the array that a Python function for chunks fills is the value of band
`b` at row `y` and column `x` of the product. -/
theorem c199_python_chunk (g : List Int → Option (List Int)) (ims : Nat → Img) (d : Dim) (nodata : Int)
    (mask : Nat → Bool) (r : List Int) (hg : g (pyArray ims d nodata) = some r) :
    ∃ out, pyRunChunk g ims d nodata mask = .ok out ∧ ∀ b y x, b < d.nband → y < d.ny → x < d.nx →
      out b (y * d.nx + x) = r.getD ((b * d.ny + y) * d.nx + x) nodata := by
  have hc : pyChunk g d nodata (pyArray ims d nodata)
      = some ((List.range (d.nband * (d.ny * d.nx))).map fun i => r.getD i nodata) := by
    unfold pyChunk; rw [hg]; rfl
  refine ⟨fun b p => ((List.range (d.nband * (d.ny * d.nx))).map fun i => r.getD i nodata).getD (b * d.nc + p) 0,
    ?_, ?_⟩
  · unfold pyRunChunk
    rw [hc]
    simp only [pyOut]
    rw [if_pos (by simp [Dim.nc])]
  · intro b y x hb hy hx
    have hlt : b * d.nc + (y * d.nx + x) < d.nband * (d.ny * d.nx) := pix_lt hb (pix_lt hy hx)
    simp only
    rw [getD_some 0 (range_map_get _ _ _ hlt)]
    congr 1
    unfold Dim.nc
    ring

/-- C201: an error in Python code ends the program, without access to memory that is not there. -/
theorem c201_python (f : List (List Int) → Option (List Int)) (g : List Int → Option (List Int)) (ims : Nat → Img)
    (d : Dim) (nodata : Int) (mask : Nat → Bool) :
    (pyRunPixel f ims d nodata mask = .exit ↔ ∃ p, p < d.ny * d.nx ∧ f (matrix ims d nodata p) = none) ∧
    pyRunPixel f ims d nodata mask ≠ .ub ∧
    (pyRunChunk g ims d nodata mask = .exit ↔ g (pyArray ims d nodata) = none) ∧
    pyRunChunk g ims d nodata mask ≠ .ub := by
  have h1 : (∃ p, p < d.nc ∧ f (matrix ims d nodata p) = none) → pyRunPixel f ims d nodata mask = .exit := by
    rintro ⟨p, hp, hf⟩
    unfold pyRunPixel pyPixel
    rw [py_args, mapM_none ⟨matrix ims d nodata p, List.mem_map.2 ⟨p, List.mem_range.2 hp, rfl⟩, by
      unfold pyWrap; rw [hf]; rfl⟩]
    rfl
  have h2 : (¬ ∃ p, p < d.nc ∧ f (matrix ims d nodata p) = none) → ∃ o, pyRunPixel f ims d nodata mask = .ok o := by
    intro hn
    unfold pyRunPixel pyPixel
    obtain ⟨r, hr⟩ := mapM_total (f := pyWrap f d nodata) (l := (List.range d.nc).map (matrix ims d nodata)) (by
      intro a ha
      obtain ⟨p, hp, rfl⟩ := List.mem_map.1 ha
      unfold pyWrap
      rw [Option.isSome_map]
      by_contra hc
      rw [Option.not_isSome_iff_eq_none] at hc
      exact hn ⟨p, List.mem_range.1 hp, hc⟩)
    rw [py_args, hr]
    simp only [pyOut]
    refine ⟨_, if_pos ?_⟩
    rw [flat_length _ (d.ny * d.nx) (fun b => flat_length _ d.nx (fun _ => by simp) _)]
    exact le_refl _
  have h3 : ∀ r, g (pyArray ims d nodata) = some r → ∃ o, pyRunChunk g ims d nodata mask = .ok o := by
    intro r hr
    obtain ⟨o, ho, -⟩ := c199_python_chunk g ims d nodata mask r hr
    exact ⟨o, ho⟩
  have h4 : g (pyArray ims d nodata) = none → pyRunChunk g ims d nodata mask = .exit := by
    intro hn
    unfold pyRunChunk pyChunk
    rw [hn]
    rfl
  refine ⟨⟨fun h => ?_, h1⟩, ?_, ⟨fun h => ?_, h4⟩, ?_⟩
  · by_contra hc
    obtain ⟨o, ho⟩ := h2 hc
    rw [ho] at h
    cases h
  · by_cases hc : ∃ p, p < d.nc ∧ f (matrix ims d nodata p) = none
    · rw [h1 hc]; intro h; cases h
    · obtain ⟨o, ho⟩ := h2 hc
      rw [ho]; intro h; cases h
  · cases hg : g (pyArray ims d nodata) with
    | none => rfl
    | some r =>
      obtain ⟨o, ho⟩ := h3 r hg
      rw [ho] at h
      cases h
  · cases hg : g (pyArray ims d nodata) with
    | none => rw [h4 hg]; intro h; cases h
    | some r =>
      obtain ⟨o, ho⟩ := h3 r hg
      rw [ho]; intro h; cases h

/-- C200, violated: the processing mask has no effect on Python functions. A function for pixels is
applied to pixels outside of the mask, and its values are in the product. -/
theorem c200_python_violated (f : List (List Int) → Option (List Int)) (ims : Nat → Img) (d : Dim) (nodata : Int)
    (mask : Nat → Bool) (out : Nat → Nat → Int) (h : pyRunPixel f ims d nodata mask = .ok out)
    (b y x : Nat) (hb : b < d.nband) (hy : y < d.ny) (hx : x < d.nx) (_hm : mask (y * d.nx + x) = false)
    (r : List Int) (hf : f (matrix ims d nodata (y * d.nx + x)) = some r) (v : Int) (hr : r[b]? = some v) (hv : v ≠ nodata) :
    out b (y * d.nx + x) = v ∧ out b (y * d.nx + x) ≠ nodata := by
  obtain ⟨r', h1, h2⟩ := c199_python_pixel f ims d nodata mask out h b y x hb hy hx
  rw [hf] at h1
  cases h1
  rw [getD_some nodata hr] at h2
  exact ⟨h2, by rw [h2]; exact hv⟩

end Verif.Udf
