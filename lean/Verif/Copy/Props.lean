import Mathlib.Data.List.Basic
import Mathlib.Tactic.Linarith
import Verif.Copy.Model

/-!
# Copies of images (C251), the number of bands (C252) -/

namespace Verif.Copy
open Verif.Str (Out)

variable {F D V : Type}

/-- The sizes of an image belong together. -/
structure Consistent (rd : ℚ → ℚ) (f : Image F D V) : Prop where
  nb : f.nb = f.bands.length
  nc : f.nc = f.nx * f.ny
  cc : f.cc = f.cx * f.cy
  width : f.width = rd (f.nx * f.geotran.xres)
  height : f.height = rd (f.ny * f.geotran.xres)
  cwidth : f.cwidth = rd (f.cx * f.geotran.xres)
  cheight : f.cheight = rd (f.cy * f.geotran.xres)

/-- Everything but the bands. -/
def header (f : Image F D V) : Image F D V := { f with nb := 0, bands := [], data := [], dtype := none }

theorem copyBands_ok (fr : List (Band D)) (src : Nat → Nat) (n0 k : Nat) (s : List (Band D)) (hs : n0 + k ≤ s.length)
    (hf : ∀ b, n0 ≤ b → b < n0 + k → src b < fr.length) :
    ∃ s', copyBands fr src (List.range' n0 k) s = .ok s' ∧ s'.length = s.length ∧
      ∀ b, s'[b]? = if n0 ≤ b ∧ b < n0 + k then fr[src b]? else s[b]? := by
  induction k generalizing n0 s with
  | zero => exact ⟨s, rfl, rfl, fun b => by rw [if_neg (by omega)]⟩
  | succ k ih =>
    have h0 := hf n0 (le_refl _) (by omega)
    have e : fr[src n0]? = some fr[src n0] := List.getElem?_eq_getElem h0
    obtain ⟨s', h1, h2, h3⟩ := ih (n0 + 1) (s.set n0 fr[src n0]) (by rw [List.length_set]; omega)
      fun b h1 h2 => hf b (by omega) (by omega)
    refine ⟨s', ?_, by rw [h2, List.length_set], fun b => ?_⟩
    · rw [List.range'_succ, copyBands, copyBand, e]
      simp only
      rw [if_pos (by omega)]
      exact h1
    · rw [h3]
      by_cases hb : b = n0
      · subst hb
        rw [if_neg (by omega), if_pos (by omega), List.getElem?_set_self (by omega), e]
      · rw [List.getElem?_set_ne (Ne.symm hb)]
        by_cases hc : n0 + 1 ≤ b ∧ b < n0 + 1 + k
        · rw [if_pos hc, if_pos (by omega)]
        · rw [if_neg hc, if_neg (by omega)]

/-- C251: a copy of an image has the same names, provenance, position, size, tile, chunk and output options, the asked
number of bands and data type, and zeros in as many cells as the image (or, if it is a chunk, the chunk) has. The bands
are described like those of the image if their number is the same, otherwise all like its first band. -/
theorem c251_copy (rd : ℚ → ℚ) (fmt0 : F) (d0 : D) (zero : V) (f : Image F D V) (nb : Int) (dtype : Option DT)
    (hc : Consistent rd f) (hp : f.prov ≠ []) (h1 : 1 ≤ f.nb) (hn : 1 ≤ nb)
    (hcells : dtype ≠ none → 1 ≤ (if f.chunkX < 0 ∨ f.chunkY < 0 then f.nx * f.ny else f.cx * f.cy)) :
    ∃ c, copy rd fmt0 d0 zero f nb dtype = .ok (some c) ∧ header c = header f ∧ c.nb = nb ∧ c.dtype = dtype ∧
      Consistent rd c ∧
      (nb = f.nb → c.bands = f.bands) ∧
      (nb ≠ f.nb → ∀ b ∈ c.bands, f.bands.head? = some b) ∧
      c.data = if dtype = none then [] else List.replicate nb.toNat (List.replicate
        (if f.chunkX < 0 ∨ f.chunkY < 0 then f.nx * f.ny else f.cx * f.cy).toNat zero) := by
  have hpl : ¬ f.prov.length = 0 := fun h => hp (List.length_eq_zero_iff.1 h)
  have hcell : (if f.chunkX < 0 ∨ f.chunkY < 0 then f.nc else f.cc) =
      (if f.chunkX < 0 ∨ f.chunkY < 0 then f.nx * f.ny else f.cx * f.cy) := by rw [hc.nc, hc.cc]
  have hlen : (f.bands.length : Int) = f.nb := hc.nb.symm
  obtain ⟨bands, k1, k2, k3⟩ := copyBands_ok f.bands (fun b => if nb = f.nb then b else 0) 0 nb.toNat
    (List.replicate nb.toNat (initBand d0)) (by simp) (fun b _ h => by split <;> omega)
  rw [← List.range_eq_range'] at k1
  rw [List.length_replicate] at k2
  unfold copy allocate
  rw [if_neg (by omega), hcell, if_neg (by rintro ⟨h, h'⟩; have := hcells h'; omega)]
  simp only
  rw [if_neg hpl]
  generalize hs : ({ name := _, product := _, dname := _, fname := _, provdir := _, prov := _, sid := _, opn := _, explode := _, dtype := _, format := _, nb := _, nx := _, ny := _, nc := _, cx := _, cy := _, cc := _, geotran := _, width := _, height := _, cwidth := _, cheight := _, chunkX := _, chunkY := _, dimChunk := _, tileX := _, tileY := _, proj := _, par := _, bands := _, data := _ } : Image F D V) = s
  have e1 : (copyPlace rd s f nb).bands = List.replicate nb.toNat (initBand d0) := by
    rw [← hs]; rfl
  have e2 : (copyPlace rd s f nb).data = if dtype = none then [] else
      List.replicate nb.toNat (List.replicate
        (if f.chunkX < 0 ∨ f.chunkY < 0 then f.nx * f.ny else f.cx * f.cy).toNat zero) := by
    rw [← hs]; rfl
  have e3 : (copyPlace rd s f nb).dtype = dtype := by rw [← hs]; rfl
  rw [e1, k1]
  refine ⟨_, rfl, ?_, rfl, e3, ⟨?_, rfl, rfl, rfl, rfl, rfl, rfl⟩, ?_, ?_, e2⟩
  · rw [← hs]
    simp only [header, copyPlace, copyNames, setNcols, setNrows, setChunkNcols, setChunkNrows, setChunkExtent]
    rw [← hc.width, ← hc.height, ← hc.cwidth, ← hc.cheight, ← hc.nc, ← hc.cc]
  · show nb = (bands.length : Int)
    omega
  · intro hnb
    show bands = f.bands
    apply List.ext_getElem?
    intro b
    rw [k3, if_pos hnb]
    split
    · rfl
    · rw [List.getElem?_eq_none (by simp; omega), List.getElem?_eq_none (by omega)]
  · intro hnb b hb
    obtain ⟨i, hi⟩ := List.mem_iff_getElem?.1 (show b ∈ bands from hb)
    have hlt : i < bands.length := (List.getElem?_eq_some_iff.1 hi).1
    rw [k3, if_pos ⟨Nat.zero_le _, by omega⟩, if_neg hnb] at hi
    rw [List.head?_eq_getElem?, hi]

/-- C251: a new image is made for at least one band and, if it holds values, one pixel; all values are 0, no band is to be
saved, and the image has no size yet. -/
theorem c251_new (fmt0 : F) (d0 : D) (zero : V) (nb nc : Int) (dtype : Option DT) :
    ((allocate fmt0 d0 zero nb nc dtype).isSome ↔ 1 ≤ nb ∧ (dtype = none ∨ 1 ≤ nc)) ∧
    ∀ s, allocate fmt0 d0 zero nb nc dtype = some s →
      s.nb = nb ∧ s.dtype = dtype ∧ s.nx = 0 ∧ s.ny = 0 ∧ s.nc = 0 ∧ s.cx = 0 ∧ s.cy = 0 ∧ s.cc = 0 ∧
      (s.bands.length : Int) = nb ∧
      (∀ b ∈ s.bands, b.save = false ∧ b.nodata = 0 ∧ b.date = d0) ∧
      (dtype ≠ none → (s.data.length : Int) = nb ∧ ∀ v ∈ s.data, (v.length : Int) = nc ∧ ∀ x ∈ v, x = zero) := by
  unfold allocate
  constructor
  · split
    · simp only [Option.isSome_none, Bool.false_eq_true, false_iff]; omega
    · split
      · next h => simp only [Option.isSome_none, Bool.false_eq_true, false_iff]; rintro ⟨-, h2 | h2⟩
                  · exact h.2 h2
                  · omega
      · next h1 h2 =>
        simp only [Option.isSome_some, true_iff]
        refine ⟨by omega, ?_⟩
        by_cases hd : dtype = none
        · exact .inl hd
        · exact .inr (by by_contra hc; exact h2 ⟨by omega, hd⟩)
  · intro s hs
    split at hs
    · cases hs
    · split at hs
      · cases hs
      · next h1 h2 =>
        obtain rfl := Option.some.inj hs
        refine ⟨rfl, rfl, rfl, rfl, rfl, rfl, rfl, rfl, ?_, ?_, ?_⟩
        · simp only [List.length_replicate]; omega
        · intro b hb
          obtain rfl := List.eq_of_mem_replicate hb
          exact ⟨rfl, rfl, rfl⟩
        · intro hd
          have hnc : ¬ nc < 1 := fun hc => h2 ⟨hc, hd⟩
          simp only [if_neg hd]
          refine ⟨by simp only [List.length_replicate]; omega, fun v hv => ?_⟩
          obtain rfl := List.eq_of_mem_replicate hv
          exact ⟨by simp only [List.length_replicate]; omega, fun x hx => List.eq_of_mem_replicate hx⟩

/-- What is set: number of columns or rows of the image or of a chunk. -/
inductive Size where
  | ncols (v : Int) | nrows (v : Int) | chunkNcols (v : Int) | chunkNrows (v : Int)

/-- The size is set. -/
def setSize (rd : ℚ → ℚ) (s : Image F D V) : Size → Image F D V
  | .ncols v => setNcols rd s v
  | .nrows v => setNrows rd s v
  | .chunkNcols v => setChunkNcols rd s v
  | .chunkNrows v => setChunkNrows rd s v

/-- C251: in whatever order and how often the sizes are set, the numbers of cells and the extents belong to them; setting one
size changes that size and leaves the others. -/
theorem c251_size (rd : ℚ → ℚ) (s : Image F D V) (h : Consistent rd s) (ops : List Size) :
    Consistent rd (ops.foldl (setSize rd) s) ∧
    ∀ v, let t := ops.foldl (setSize rd) s
      ((setNcols rd t v).nx, (setNcols rd t v).ny, (setNcols rd t v).cx, (setNcols rd t v).cy) = (v, t.ny, t.cx, t.cy) ∧
      ((setNrows rd t v).nx, (setNrows rd t v).ny, (setNrows rd t v).cx, (setNrows rd t v).cy) = (t.nx, v, t.cx, t.cy) ∧
      ((setChunkNcols rd t v).nx, (setChunkNcols rd t v).ny, (setChunkNcols rd t v).cx, (setChunkNcols rd t v).cy) =
        (t.nx, t.ny, v, t.cy) ∧
      ((setChunkNrows rd t v).nx, (setChunkNrows rd t v).ny, (setChunkNrows rd t v).cx, (setChunkNrows rd t v).cy) =
        (t.nx, t.ny, t.cx, v) := by
  refine ⟨?_, fun v => ⟨rfl, rfl, rfl, rfl⟩⟩
  induction ops generalizing s with
  | nil => exact h
  | cons o ops ih =>
    refine ih _ ?_
    obtain ⟨h1, h2, h3, h4, h5, h6, h7⟩ := h
    cases o
    · exact ⟨h1, rfl, h3, rfl, h5, h6, h7⟩
    · exact ⟨h1, rfl, h3, h4, rfl, h6, h7⟩
    · exact ⟨h1, h2, rfl, h4, h5, rfl, h7⟩
    · exact ⟨h1, h2, rfl, h4, h5, h6, rfl⟩

/-- C251: an image without provenance cannot be copied, the program ends. -/
theorem c251_no_provenance (rd : ℚ → ℚ) (fmt0 : F) (d0 : D) (zero : V) (f : Image F D V) (nb : Int) (dtype : Option DT)
    (hp : f.prov = []) (hn : 1 ≤ nb) (h1 : 1 ≤ f.nc) (h2 : 1 ≤ f.cc) :
    copy rd fmt0 d0 zero f nb dtype = .exit := by
  unfold copy allocate
  rw [if_neg (by omega), if_neg (by rintro ⟨h, -⟩; split at h <;> omega)]
  simp only
  rw [if_pos (by rw [hp]; rfl)]

/-- C252: if the number of bands of an image is enlarged, the bands that are there keep values and description, the new
ones are 0 in all pixels of the image and are described like the first one. -/
theorem c252_more (dz : D) (zero : V) (s : Image F D V) (nb : Int) (h : s.nb < nb) (hb : s.nb = s.bands.length)
    (hd : s.nb = s.data.length) (h1 : 1 ≤ s.nb) (hc : 1 ≤ s.nc) (ht : s.dtype ≠ none) :
    ∃ r, reallocate dz zero s nb = .ok (some r) ∧ header r = header s ∧ r.dtype = s.dtype ∧ r.nb = nb ∧
      (r.bands.length : Int) = nb ∧ (r.data.length : Int) = nb ∧
      (∀ b : Nat, (b : Int) < s.nb → r.bands[b]? = s.bands[b]? ∧ r.data[b]? = s.data[b]?) ∧
      ∀ b : Nat, s.nb ≤ b → (b : Int) < nb →
        r.bands[b]? = s.bands[0]? ∧ r.data[b]? = some (List.replicate s.nc.toNat zero) := by
  have ht1 : s.bands.take nb.toNat = s.bands := List.take_of_length_le (by omega)
  have ht2 : s.data.take nb.toNat = s.data := List.take_of_length_le (by omega)
  unfold reallocate
  rw [if_neg (by omega), if_neg (by omega), if_neg (by omega), if_neg ht]
  simp only
  rw [if_pos h, ht1, ht2]
  obtain ⟨bands, k1, k2, k3⟩ := copyBands_ok (s.bands ++ List.replicate (nb.toNat - s.nb.toNat) (zeroBand dz)) (fun _ => 0)
    s.nb.toNat (nb.toNat - s.nb.toNat) (s.bands ++ List.replicate (nb.toNat - s.nb.toNat) (zeroBand dz))
    (by rw [List.length_append, List.length_replicate]; omega)
    (fun b _ _ => by rw [List.length_append]; omega)
  rw [k1]
  rw [List.length_append, List.length_replicate] at k2
  refine ⟨_, rfl, rfl, rfl, rfl, ?_, ?_, ?_, ?_⟩
  · show (bands.length : Int) = nb
    omega
  · simp only [List.length_append, List.length_replicate]
    omega
  · intro b hlt
    constructor
    · show bands[b]? = _
      rw [k3, if_neg (by omega), List.getElem?_append_left (by omega)]
    · exact List.getElem?_append_left (by omega)
  · intro b hge hlt
    constructor
    · show bands[b]? = _
      rw [k3, if_pos (by omega), List.getElem?_append_left (by omega)]
    · show (_ ++ _)[b]? = _
      rw [List.getElem?_append_right (by omega), List.getElem?_replicate, if_pos (by omega)]

/-- C252: if the number of bands is reduced, the first ones are left, unchanged. -/
theorem c252_fewer (dz : D) (zero : V) (s : Image F D V) (nb : Int) (h : nb < s.nb) (hn : 1 ≤ nb) (hc : 1 ≤ s.nc)
    (ht : s.dtype ≠ none) :
    ∃ r, reallocate dz zero s nb = .ok (some r) ∧ header r = header s ∧ r.dtype = s.dtype ∧ r.nb = nb ∧
      r.bands = s.bands.take nb.toNat ∧ r.data = s.data.take nb.toNat := by
  unfold reallocate
  rw [if_neg (by omega), if_neg (by omega), if_neg (by omega), if_neg ht]
  simp only
  rw [if_neg (by omega), show nb.toNat - s.nb.toNat = 0 by omega, List.replicate_zero, List.append_nil]
  exact ⟨_, rfl, rfl, rfl, rfl, rfl, by simp⟩

/-- C252, its limit: in a chunk the new bands have the size of the whole image, not that of the chunk: the bands of one
image have different sizes. -/
theorem c252_chunk (dz : D) (zero : V) (s : Image F D V) (nb : Int) (h : s.nb < nb) (hb : s.nb = s.bands.length)
    (hd : s.nb = s.data.length) (h1 : 1 ≤ s.nb) (hc : 1 ≤ s.nc) (ht : s.dtype ≠ none) (hcc : 1 ≤ s.cc ∧ s.cc < s.nc)
    (hdat : ∀ x ∈ s.data, (x.length : Int) = s.cc) :
    ∃ r a b, reallocate dz zero s nb = .ok (some r) ∧ a ∈ r.data ∧ b ∈ r.data ∧ a.length < b.length := by
  obtain ⟨r, e, -, -, -, -, -, h5, h6⟩ := c252_more dz zero s nb h hb hd h1 hc ht
  have a1 := (h5 0 (by omega)).2
  have a2 := (h6 s.nb.toNat (by omega) (by omega)).2
  have hl : 0 < s.data.length := by omega
  rw [List.getElem?_eq_getElem hl] at a1
  have hx := hdat _ (List.getElem_mem hl)
  refine ⟨r, _, _, e, List.mem_of_getElem? a1, List.mem_of_getElem? a2, ?_⟩
  rw [List.length_replicate]
  omega

/-- C251: the band of a spectral domain is the first one with this domain; -1 if there is none. -/
theorem c251_domain (domain : List Char) (bands : List (Band D)) :
    (findDomain domain bands 0 = -1 ∧ ∀ x ∈ bands, x.domain ≠ domain) ∨
    ∃ b : Nat, findDomain domain bands 0 = b ∧ (∃ x, bands[b]? = some x ∧ x.domain = domain) ∧
      ∀ a < b, ∀ x, bands[a]? = some x → x.domain ≠ domain := by
  have key : ∀ (l : List (Band D)) (k : Nat), (findDomain domain l k = -1 ∧ ∀ x ∈ l, x.domain ≠ domain) ∨
      ∃ b : Nat, findDomain domain l k = (k + b : Nat) ∧ (∃ x, l[b]? = some x ∧ x.domain = domain) ∧
      ∀ a < b, ∀ x, l[a]? = some x → x.domain ≠ domain := by
    intro l
    induction l with
    | nil => exact fun k => Or.inl ⟨rfl, by simp⟩
    | cons y l ih =>
      intro k
      by_cases hy : y.domain = domain
      · exact Or.inr ⟨0, by rw [findDomain, if_pos hy]; rfl, ⟨y, rfl, hy⟩, by omega⟩
      · rw [findDomain, if_neg hy]
        rcases ih (k + 1) with ⟨h1, h2⟩ | ⟨b, h1, h2, h3⟩
        · left
          refine ⟨by exact_mod_cast h1, fun x hx => ?_⟩
          rcases List.mem_cons.1 hx with rfl | hx
          · exact hy
          · exact h2 x hx
        · right
          refine ⟨b + 1, ?_, h2, fun a ha x hx => ?_⟩
          · rw [show (k : Int) + 1 = ((k + 1 : Nat) : Int) by push_cast; rfl, h1]
            push_cast; omega
          · cases a with
            | zero => cases hx; exact hy
            | succ a => exact h3 a (by omega) x hx
  rcases key bands 0 with h | ⟨b, h1, h2⟩
  · exact Or.inl h
  · exact Or.inr ⟨b, by simpa using h1, h2⟩

/-- An image of 2 x 3 pixels with two bands. -/
def ex : Image Unit Unit Int :=
  { name := ['n'], product := ['p'], dname := ['d'], fname := ['f'], provdir := ['v'], prov := [['o']], sid := 2, opn := 1
    explode := 0, dtype := some .short, format := (), nb := 2, nx := 2, ny := 3, nc := 6, cx := 2, cy := 1, cc := 2
    geotran := ⟨100, 10, 0, 200, 0, -10⟩, width := 20, height := 30, cwidth := 20, cheight := 10, chunkX := -1, chunkY := -1
    dimChunk := ⟨1, 3, 3⟩, tileX := 5, tileY := 7, proj := ['j'], par := ['r']
    bands := [⟨true, -9999, 10000, 1, ['m'], ['R'], ['1'], ['S'], ()⟩, ⟨true, 0, 10000, 2, ['m'], ['N'], ['2'], ['S'], ()⟩]
    data := [[1, 2, 3, 4, 5, 6], [1, 1, 1, 1, 1, 1]] }

example : Consistent id ex ∧ ex.prov ≠ [] ∧ 1 ≤ ex.nb ∧ ex.nb = ex.data.length ∧ ex.dtype ≠ none ∧
    1 ≤ (if ex.chunkX < 0 ∨ ex.chunkY < 0 then ex.nx * ex.ny else ex.cx * ex.cy) := by
  refine ⟨⟨rfl, rfl, rfl, ?_, ?_, ?_, ?_⟩, by decide, by decide, rfl, by decide, by decide⟩ <;> norm_num [ex]

/-- In a chunk. -/
example : let s := { ex with chunkX := 0, chunkY := 1, data := [[1, 2], [1, 1]] }
    s.nb = s.data.length ∧ (1 ≤ s.cc ∧ s.cc < s.nc) ∧ ∀ x ∈ s.data, (x.length : Int) = s.cc := by
  refine ⟨rfl, by decide, ?_⟩
  simp [ex]

end Verif.Copy
