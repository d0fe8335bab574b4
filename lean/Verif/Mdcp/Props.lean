import Mathlib.Data.List.Basic
import Verif.Mdcp.Model

namespace Verif.Mdcp

namespace Spec

/-- `new` is `old` with FORCE's metadata and the description of `src`: everything else is as it was. -/
def BandCopied (src old new : Band) : Prop :=
  new.items "FORCE".toList = src.items "FORCE".toList ∧ (∀ d, d ≠ "FORCE".toList → new.items d = old.items d) ∧
  new.name = src.name ∧ new.pixels = old.pixels

/-- The same for an image and all of its bands. -/
def Copied (src old new : Image) : Prop :=
  new.items "FORCE".toList = src.items "FORCE".toList ∧ (∀ d, d ≠ "FORCE".toList → new.items d = old.items d) ∧
  new.bands.length = old.bands.length ∧
  ∀ (b : Nat) (s o n : Band), src.bands[b]? = some s → old.bands[b]? = some o → new.bands[b]? = some n →
    BandCopied s o n

end Spec

theorem copyBand_length (src dst : List Band) (b : Nat) : (copyBand src dst b).length = dst.length := by
  unfold copyBand
  split
  · simp
  · rfl

/-- A band after `k` turns of the loop. -/
def turned (k b : Nat) (src dst : Option Band) : Option Band :=
  match src, dst with
  | some s, some d => if b < k then some ⟨setItems d.items force (s.items force), s.name, d.pixels⟩ else some d
  | _, o => o

theorem fold_spec (src dst : List Band) (k : Nat) :
    ((List.range k).foldl (copyBand src) dst).length = dst.length ∧
    ∀ b, ((List.range k).foldl (copyBand src) dst)[b]? = turned k b src[b]? dst[b]? := by
  unfold turned
  induction k with
  | zero =>
    refine ⟨rfl, fun b => ?_⟩
    cases src[b]? <;> cases h : dst[b]? <;> simp [h]
  | succ k ih =>
    rw [List.range_succ, List.foldl_append, List.foldl_cons, List.foldl_nil]
    refine ⟨(copyBand_length _ _ _).trans ih.1, fun b => ?_⟩
    generalize hq : (List.range k).foldl (copyBand src) dst = q at ih
    obtain ⟨h1, h2⟩ := ih
    by_cases hb : b = k
    · subst hb
      have hq0 := h2 b
      unfold copyBand
      cases hs : src[b]? with
      | none =>
        rw [hs] at hq0
        dsimp only at hq0 ⊢
        exact hq0
      | some s =>
        cases hd : dst[b]? with
        | none =>
          rw [hs, hd] at hq0
          dsimp only at hq0 ⊢
          rw [hq0]
          dsimp only
          exact hq0
        | some d =>
          rw [hs, hd] at hq0
          dsimp only at hq0
          rw [if_neg (by omega)] at hq0
          rw [hq0]
          dsimp only
          have hlt : b < q.length := (List.getElem?_eq_some_iff.1 hq0).1
          rw [List.getElem?_set_self hlt, if_pos (by omega)]
    · have : (copyBand src q k)[b]? = q[b]? := by
        unfold copyBand
        split
        · rw [List.getElem?_set_ne (by omega)]
        · rfl
      rw [this, h2 b]
      cases src[b]? with
      | none => rfl
      | some s =>
        cases dst[b]? with
        | none => rfl
        | some d =>
          dsimp only
          by_cases hk : b < k
          · rw [if_pos hk, if_pos (by omega)]
          · rw [if_neg hk, if_neg (by omega)]

/-- C305: if both images can be opened and have equally many bands, the second image gets FORCE's metadata and the descriptions of
the first one, for the image and for each band; its pixels and all other metadata stay as they are, and no other image changes. -/
theorem c305_copied (fsrc fdst : Text) (fs : Text → Option Image) (src dst : Image) (hs : fs fsrc = some src)
    (hd : fs fdst = some dst) (hn : src.bands.length = dst.bands.length) :
    ∃ new, mdcp fsrc fdst fs = (fun n => if n = fdst then some new else fs n, true) ∧ Spec.Copied src dst new := by
  refine ⟨copyAll src dst, ?_, ?_⟩
  · unfold mdcp
    rw [hs, hd]
    dsimp only
    rw [if_neg (by omega)]
  · obtain ⟨h1, h2⟩ := fold_spec src.bands dst.bands src.bands.length
    unfold turned at h2
    refine ⟨by simp [copyAll, setItems, force], fun d h => if_neg h, h1, ?_⟩
    intro b s o n e1 e2 e3
    have := h2 b
    rw [e1, e2] at this
    dsimp only at this
    rw [if_pos (List.getElem?_eq_some_iff.1 e1).1] at this
    have e : n = _ := Option.some.inj (e3.symm.trans this)
    subst e
    exact ⟨by simp [setItems, force], fun d h => if_neg h, rfl, rfl⟩

/-- C305: otherwise the program fails, and nothing is changed. -/
theorem c305_refused (fsrc fdst : Text) (fs : Text → Option Image)
    (h : fs fsrc = none ∨ fs fdst = none ∨
      ∃ src dst, fs fsrc = some src ∧ fs fdst = some dst ∧ src.bands.length ≠ dst.bands.length) :
    mdcp fsrc fdst fs = (fs, false) := by
  unfold mdcp
  rcases h with h | h | ⟨src, dst, h1, h2, h3⟩
  · rw [h]
  · rw [h]
    cases fs fsrc <;> rfl
  · rw [h1, h2]
    dsimp only
    rw [if_pos h3]

/-- C305: a later copy replaces an earlier one completely: after a copy of another image, the result is the same as without it. -/
theorem c305_last (src other dst : Image) (h1 : other.bands.length = dst.bands.length)
    (h2 : src.bands.length = dst.bands.length) : copyAll src (copyAll other dst) = copyAll src dst := by
  have hi : setItems (setItems dst.items force (other.items force)) force (src.items force) =
      setItems dst.items force (src.items force) := by
    funext d
    unfold setItems
    split <;> rfl
  show Image.mk _ _ = Image.mk _ _
  congr 1
  apply List.ext_getElem?
  intro b
  obtain ⟨-, f1⟩ := fold_spec src.bands (copyAll other dst).bands src.bands.length
  obtain ⟨-, f2⟩ := fold_spec src.bands dst.bands src.bands.length
  obtain ⟨-, f3⟩ := fold_spec other.bands dst.bands other.bands.length
  unfold turned at f1 f2 f3
  rw [f1 b, f2 b, show (copyAll other dst).bands[b]? = _ from f3 b]
  cases hs : src.bands[b]? with
  | none =>
    have : src.bands.length ≤ b := List.getElem?_eq_none_iff.1 hs
    have hd : dst.bands[b]? = none := List.getElem?_eq_none (by omega)
    rw [hd]
    cases other.bands[b]? <;> rfl
  | some s =>
    have hlt := (List.getElem?_eq_some_iff.1 hs).1
    have hd : dst.bands[b]? = some (dst.bands[b]'(by omega)) := List.getElem?_eq_getElem (by omega)
    have ho : other.bands[b]? = some (other.bands[b]'(by omega)) := List.getElem?_eq_getElem (by omega)
    rw [hd, ho]
    dsimp only
    rw [if_pos (by omega)]
    dsimp only
    rw [if_pos hlt, if_pos hlt]
    congr 2
    funext d
    unfold setItems
    split <;> rfl

/-- The hypotheses are met: two images with a band each. -/
example : ((mdcp ['a'] ['b'] (fun n =>
      if n = ['a'] then some ⟨fun _ => [['x']], [⟨fun _ => [['y']], "RED".toList, [1]⟩]⟩
      else if n = ['b'] then some ⟨fun _ => [], [⟨fun _ => [], "band 1".toList, [7]⟩]⟩ else none)).1 ['b']).map
    (fun i => (i.items force, i.items [], i.bands.map (fun b => (b.name, b.pixels)))) =
    some ([['x']], [], [("RED".toList, [7])]) := by decide +kernel

end Verif.Mdcp
