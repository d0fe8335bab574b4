import Mathlib.Data.List.Basic
import Verif.Plog.Model

/-!
# Property C291: the parameter log
-/

namespace Verif.Plog

open Verif.Str (Out)

/-! ## Specification -/

/-- The values of a parameter. -/
def Spec.values : Par → List Val
  | .scalar _ v => [v]
  | .vector _ vs => vs

/-- Name, colon, and the values with blanks between them. -/
def Spec.entry (p : Par) : List Char :=
  p.name ++ ": ".toList ++ [' '].intercalate ((Spec.values p).map text)

/-- The entries with commas between them. -/
def Spec.full (ps : List Par) : List Char := ", ".toList.intercalate (ps.map Spec.entry)

/-! ## Lemmas -/

theorem put_fits (s : List Char) (l : Log) (hl : l.text.length = l.cur) (h : l.cur + s.length < 16384) :
    put s l = .ok ⟨l.text ++ s, (l.text ++ s).length⟩ := by
  unfold put
  rw [if_pos (by omega), List.take_of_length_le (by omega), List.length_append, hl]

theorem elements_one (v : Val) (l : Log) (h : l.cur < 16384) : elements [v] l = put (text v) l := by
  have e : readStr (eol (List.isEmpty ([] : List Val))) = .ok [] := by decide
  rw [elements, if_pos h, e]
  show (put (text v ++ []) l).bind (fun l => elements [] l) = _
  rw [List.append_nil]
  unfold put
  rw [if_pos h]
  rfl

theorem elements_many (v w : Val) (vs : List Val) (l : Log) (h : l.cur < 16384) : elements (v :: w :: vs) l = .ub := by
  have e : readStr (eol (List.isEmpty (w :: vs))) = .ub := by
    show readStr (eol false) = .ub
    decide
  rw [elements, if_pos h, e]
  rfl

/-- The parts of the text after the first entries. -/
def rest (first : Bool) (ps : List Par) : List Char :=
  (if first ∨ ps = [] then [] else ", ".toList) ++ Spec.full ps

theorem full_cons (p : Par) (ps : List Par) : Spec.full (p :: ps) = Spec.entry p ++ rest false ps := by
  unfold Spec.full rest
  cases ps with
  | nil => simp [List.intercalate, Spec.full]
  | cons q qs => simp [List.intercalate, Spec.full, List.intersperse]

theorem entry_le (p : Par) (h : (Spec.values p).length ≤ 1) :
    Spec.entry p = p.name ++ ": ".toList ++ ((Spec.values p).map text).flatten := by
  unfold Spec.entry
  generalize Spec.values p = vs at *
  match vs, h with
  | [], _ => rfl
  | [v], _ => simp [List.intercalate]

theorem value_ok (p : Par) (l : Log) (hv : (Spec.values p).length ≤ 1) (hl : l.text.length = l.cur)
    (h : l.cur + ((Spec.values p).map text).flatten.length < 16384) :
    value p l = .ok ⟨l.text ++ ((Spec.values p).map text).flatten,
      (l.text ++ ((Spec.values p).map text).flatten).length⟩ := by
  cases p with
  | scalar n v =>
    simp only [Spec.values, List.map_cons, List.map_nil, List.flatten_cons, List.flatten_nil, List.append_nil] at *
    exact put_fits _ _ hl h
  | vector n vs =>
    match vs, hv with
    | [], _ =>
      simp only [Spec.values, List.map_nil, List.flatten_nil, List.append_nil, hl]
      rfl
    | [v], _ =>
      simp only [Spec.values, List.map_cons, List.map_nil, List.flatten_cons, List.flatten_nil, List.append_nil] at *
      show elements [v] l = _
      rw [elements_one v l (by omega)]
      exact put_fits _ _ hl h

/-- The separator and the name. -/
theorem head_ok (first : Bool) (p : Par) (l : Log) (hl : l.text.length = l.cur)
    (h : l.cur + ((if first then [] else ", ".toList) ++ (p.name ++ ": ".toList)).length < 16384)
    (f : Log → Out Log) :
    ((if first then Out.ok l else put ", ".toList l).bind fun l => (put (p.name ++ ": ".toList) l).bind f) =
      f ⟨l.text ++ ((if first then [] else ", ".toList) ++ (p.name ++ ": ".toList)),
        (l.text ++ ((if first then [] else ", ".toList) ++ (p.name ++ ": ".toList))).length⟩ := by
  cases first with
  | true =>
    simp only [if_true, List.nil_append] at *
    show (put (p.name ++ ": ".toList) l).bind f = _
    rw [put_fits _ _ hl h]
    rfl
  | false =>
    simp only [Bool.false_eq_true, if_false] at *
    rw [List.length_append] at h
    rw [put_fits _ _ hl (by omega)]
    show (put (p.name ++ ": ".toList) ⟨l.text ++ ", ".toList, (l.text ++ ", ".toList).length⟩).bind f = _
    rw [put_fits _ _ rfl (by rw [List.length_append]; dsimp only; omega)]
    show f _ = _
    rw [List.append_assoc]

theorem sep_eq (first : Bool) (p : Par) (ps : List Par) :
    rest first (p :: ps) = (if first then [] else ", ".toList) ++ Spec.full (p :: ps) := by
  unfold rest
  cases first <;> simp

theorem params_ok (ps : List Par) : ∀ (first : Bool) (l : Log), (∀ p ∈ ps, (Spec.values p).length ≤ 1) →
    l.text.length = l.cur → l.cur + (rest first ps).length < 16384 →
    ∀ qs, params first (ps ++ qs) l = params (first && ps.isEmpty) qs ⟨l.text ++ rest first ps, (l.text ++ rest first ps).length⟩ := by
  induction ps with
  | nil =>
    intro first l _ hl _ qs
    have : rest first [] = [] := by simp [rest, Spec.full, List.intercalate]
    rw [this, List.append_nil, hl, List.nil_append, List.isEmpty_nil, Bool.and_true]
  | cons p ps ih =>
    intro first l hv hl h qs
    have hp := hv p (List.mem_cons_self ..)
    rw [sep_eq, full_cons, entry_le p hp] at h ⊢
    simp only [List.length_append] at h
    rw [List.cons_append, params, head_ok first p l hl (by simp only [List.length_append]; omega)]
    rw [value_ok p _ hp rfl (by simp only [List.length_append]; omega)]
    show params false (ps ++ qs) _ = _
    rw [ih false _ (fun q hq => hv q (List.mem_cons_of_mem _ hq)) rfl (by simp only [List.length_append]; omega)]
    simp only [Bool.false_and, List.isEmpty_cons, Bool.and_false, List.append_assoc]

/-! ## C291 -/

/-- C291: if no parameter has more than one value and the text has fewer than 16384 characters, the log is the full text.
Missing: parameters with more values, and longer texts. -/
theorem c291_text_partial (ps : List Par) (hv : ∀ p ∈ ps, (Spec.values p).length ≤ 1)
    (h : (Spec.full ps).length < 16384) : logParameter ps = .ok (Spec.full ps) := by
  have hr : rest true ps = Spec.full ps := by simp [rest]
  have := params_ok ps true ⟨[], 0⟩ hv rfl (by rw [hr]; simpa using h) []
  unfold logParameter
  rw [List.append_nil] at this
  rw [this, hr]
  rfl

/-- C291, violated: as soon as a parameter has two or more values, the log is undefined, whatever the values are: the blank
between them is not terminated. -/
theorem c291_vector_violated (ps qs : List Par) (name : List Char) (v w : Val) (vs : List Val)
    (hv : ∀ p ∈ ps, (Spec.values p).length ≤ 1) (h : (Spec.full ps).length + name.length + 4 < 16384) :
    logParameter (ps ++ .vector name (v :: w :: vs) :: qs) = .ub := by
  have hr : rest true ps = Spec.full ps := by simp [rest]
  have := params_ok ps true ⟨[], 0⟩ hv rfl (by rw [hr]; dsimp only; omega) (.vector name (v :: w :: vs) :: qs)
  unfold logParameter
  rw [this, hr, params]
  have hs : ∀ b : Bool, ((if b then [] else ", ".toList) ++ (name ++ ": ".toList)).length ≤ name.length + 4 := by
    intro b
    cases b <;> simp <;> omega
  have hk := hs (true && ps.isEmpty)
  rw [head_ok _ (.vector name (v :: w :: vs)) _ rfl (by dsimp only [Par.name, List.nil_append]; omega)]
  show ((elements (v :: w :: vs) _).bind _).bind _ = _
  rw [elements_many v w vs _ (by dsimp only [Par.name, List.nil_append]; rw [List.length_append]; omega)]
  rfl

/-- C291, violated: a text of 16384 or more characters is cut without a message if the limit lies in the last value. -/
theorem c291_cut_violated (ps : List Par) (name : List Char) (v : Val) (hv : ∀ p ∈ ps, (Spec.values p).length ≤ 1)
    (h : (Spec.full ps).length + name.length + 4 < 16384)
    (hlong : 16384 ≤ (Spec.full (ps ++ [.scalar name v])).length) :
    logParameter (ps ++ [.scalar name v]) = .ok ((Spec.full (ps ++ [.scalar name v])).take 16383) ∧
      (Spec.full (ps ++ [.scalar name v])).take 16383 ≠ Spec.full (ps ++ [.scalar name v]) := by
  have hr : rest true ps = Spec.full ps := by simp [rest]
  have := params_ok ps true ⟨[], 0⟩ hv rfl (by rw [hr]; dsimp only; omega) [.scalar name v]
  have hs : ∀ b : Bool, ((if b then [] else ", ".toList) ++ (name ++ ": ".toList)).length ≤ name.length + 4 := by
    intro b
    cases b <;> simp <;> omega
  have hk := hs (true && ps.isEmpty)
  have hf : ∀ ps : List Par, Spec.full (ps ++ [.scalar name v]) = Spec.full ps ++ ((if true && ps.isEmpty then [] else ", ".toList) ++ (name ++ ": ".toList)) ++ text v := by
    intro ps
    induction ps with
    | nil => simp [Spec.full, Spec.entry, List.intercalate, Par.name, Spec.values]
    | cons p ps ih =>
      rw [List.cons_append, full_cons, full_cons]
      cases ps with
      | nil => simp [rest, Spec.full, Spec.entry, List.intercalate, Par.name, Spec.values]
      | cons q qs =>
        rw [List.cons_append, sep_eq, sep_eq, ← List.cons_append, ih]
        simp
  refine ⟨?_, fun e => by have := congrArg List.length e; rw [List.length_take] at this; omega⟩
  unfold logParameter
  rw [this, hr, params, head_ok _ (.scalar name v) _ rfl (by dsimp only [Par.name, List.nil_append]; omega)]
  simp only [Par.name, List.nil_append]
  generalize hg : Spec.full ps ++ ((if (true && ps.isEmpty) = true then [] else ", ".toList) ++ (name ++ ": ".toList)) = pre
  have hpre : pre.length < 16384 := by rw [← hg, List.length_append]; omega
  have hfull := hf ps
  rw [hg] at hfull
  rw [hfull]
  show ((put (text v) ⟨pre, pre.length⟩).bind _).bind _ = _
  unfold put
  rw [if_pos hpre]
  show Out.ok (pre ++ (text v).take (16384 - pre.length - 1)) = _
  have hd : 16383 - pre.length = 16384 - pre.length - 1 := by omega
  have ht : pre.take 16383 = pre := List.take_of_length_le (by omega)
  rw [List.take_append, ht, hd]

theorem put_size (s : List Char) (l r : Log) (h : put s l = .ok r) (hl : l.text.length ≤ 16383 ∧ l.text.length ≤ l.cur) :
    r.text.length ≤ 16383 ∧ r.text.length ≤ r.cur := by
  unfold put at h
  split at h
  · cases h
    simp only [List.length_append, List.length_take]
    omega
  · cases h

theorem bind_inv {α β : Type} (o : Out α) (f : α → Out β) (b : β) (h : o.bind f = .ok b) : ∃ a, o = .ok a ∧ f a = .ok b := by
  cases o with
  | ok a => exact ⟨a, rfl, h⟩
  | exit => cases h
  | ub => cases h

theorem elements_size (vs : List Val) : ∀ l r : Log, elements vs l = .ok r →
    l.text.length ≤ 16383 ∧ l.text.length ≤ l.cur → r.text.length ≤ 16383 ∧ r.text.length ≤ r.cur := by
  induction vs with
  | nil => intro l r h hl; cases h; exact hl
  | cons v vs ih =>
    intro l r h hl
    rw [elements] at h
    split at h
    · obtain ⟨e, -, h⟩ := bind_inv _ _ _ h
      obtain ⟨m, h1, h⟩ := bind_inv _ _ _ h
      exact ih m r h (put_size _ _ _ h1 hl)
    · cases h

theorem params_size (ps : List Par) : ∀ (first : Bool) (l r : Log), params first ps l = .ok r →
    l.text.length ≤ 16383 ∧ l.text.length ≤ l.cur → r.text.length ≤ 16383 ∧ r.text.length ≤ r.cur := by
  induction ps with
  | nil => intro first l r h hl; cases h; exact hl
  | cons p ps ih =>
    intro first l r h hl
    rw [params] at h
    obtain ⟨a, h1, h⟩ := bind_inv _ _ _ h
    obtain ⟨b, h2, h⟩ := bind_inv _ _ _ h
    obtain ⟨c, h3, h⟩ := bind_inv _ _ _ h
    have ha : a.text.length ≤ 16383 ∧ a.text.length ≤ a.cur := by
      cases first with
      | true => cases h1; exact hl
      | false => exact put_size _ _ _ h1 hl
    have hb := put_size _ _ _ h2 ha
    refine ih false c r h ?_
    cases p with
    | scalar n v => exact put_size _ _ _ h3 hb
    | vector n vs => exact elements_size vs b c h3 hb

/-- C291: the log never has more characters than its slot can hold, with the final NUL. -/
theorem c291_size (ps : List Par) (t : List Char) (h : logParameter ps = .ok t) : t.length ≤ 16383 := by
  unfold logParameter at h
  obtain ⟨l, h1, h2⟩ := bind_inv _ _ _ h
  cases h2
  exact (params_size ps true _ _ h1 ⟨by simp, by simp⟩).1

/-! ## Concrete cases -/

/-- A number and a text. -/
example : logParameter [.scalar "NPROC".toList (.int 4), .scalar "DIR".toList (.str "/data".toList)] =
    .ok "NPROC: 4, DIR: /data".toList := by
  rw [c291_text_partial _ (by decide) (by decide +kernel)]
  decide +kernel

/-- The tile range of each run. -/
example : logParameter [.scalar "NPROC".toList (.int 4), .vector "X_TILE_RANGE".toList [.int 0, .int 1]] = .ub :=
  c291_vector_violated [.scalar "NPROC".toList (.int 4)] [] "X_TILE_RANGE".toList (.int 0) (.int 1) [] (by decide)
    (by decide +kernel)

end Verif.Plog
