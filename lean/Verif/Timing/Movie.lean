import Verif.Timing.Deploy
import Mathlib.Tactic.Ring
import Mathlib.Tactic.Linarith
import Mathlib.Tactic.Positivity

/-!
# Stored plans and movies (vehicle.py, plotlayer.py)

`Vehicle.simulate` remembers for every logged instant the plan that is executed; figures and movies show for an index of the log the signals up to
that index and the plan remembered for it.
-/

set_option linter.unusedSectionVars false

namespace Verif.Timing

variable {K : Type} [Field K] [LinearOrder K] [IsStrictOrderedRing K] [FloorRing K] {A : Type}

/-! ## Model -/

/-- `_add_to_memory`, vehicle.py:452-456. -/
def addToMemory (mem : List A) (d : A) (repeats : ℤ) : List A := mem ++ List.replicate repeats.toNat d

/-- `traj_storage` after a number of updates, vehicle.py:391-397 (with ideal update). -/
def storage (upd Ts : K) (plans : List A) : List A := plans.foldl (fun mem p => addToMemory mem p (pyInt (upd / Ts))) []

/-- `range(0, n, step)`; `none` is a ValueError. -/
def pyRange (n : ℕ) (step : ℤ) : Option (List ℕ) :=
  if step = 0 then none
  else if step < 0 then some []
  else some ((List.range ((n + step.toNat - 1) / step.toNat)).map (· * step.toNat))

/-- The number of frames, plotlayer.py:312-316. -/
def nof (n : ℕ) : Option ℕ → ℕ
  | some r => if r ≤ n then r else n
  | none => n

/-- The indices shown by `plot_movie` and `save_movie` (plotlayer.py:310-319, 328-342) for `n+1` logged instants; `req` is `number_of_frames`.
`none` is an exception. -/
def frames (n : ℕ) (req : Option ℕ) : Option (List ℕ) :=
  if nof n req = 1 then none
  else (pyRange n (Int.fdiv n ((nof n req : ℤ) - 1))).map fun l => l ++ List.replicate (nof n req - l.length) n

/-! ## Lemmas -/

theorem storage_eq (Ts : K) (hs : 0 < Ts) (q : ℕ) (plans : List A) :
    storage (q * Ts) Ts plans = plans.flatMap (List.replicate q) := by
  have e : pyInt ((q : K) * Ts / Ts) = (q : ℤ) := by
    rw [mul_div_assoc, div_self hs.ne', mul_one]
    have := pyInt_intCast (K := K) (q : ℤ)
    simpa using this
  unfold storage addToMemory
  simp only [e, Int.toNat_natCast]
  rw [List.flatMap_eq_foldl]

theorem flatMap_replicate_get (q : ℕ) (plans : List A) (k i : ℕ) (hi : i < q) :
    (plans.flatMap (List.replicate q))[k * q + i]? = plans[k]? := by
  induction plans generalizing k with
  | nil => simp
  | cons p l ih =>
    rw [List.flatMap_cons]
    cases k with
    | zero => rw [List.getElem?_append_left (by simpa using hi)]; simp [hi]
    | succ k =>
      rw [List.getElem?_append_right (by simp; nlinarith)]
      rw [List.length_replicate, show (k + 1) * q + i - q = k * q + i by rw [Nat.succ_mul]; omega, ih]
      simp

theorem fdiv_nat (n m : ℕ) (hm : 2 ≤ m) : Int.fdiv n ((m : ℤ) - 1) = ((n / (m - 1) : ℕ) : ℤ) := by
  rw [show ((m : ℤ) - 1) = ((m - 1 : ℕ) : ℤ) by omega, Int.fdiv_eq_ediv_of_nonneg _ (by omega)]
  rfl

/-- The indices for at least two frames. -/
theorem frames_eq (n m : ℕ) (req : Option ℕ) (h2 : 2 ≤ m) (hmn : m ≤ n) (hr : req = some m ∨ (req = none ∧ m = n) ∨ ∃ r, req = some r ∧ n < r ∧ m = n) :
    frames n req = some ((List.range ((n + n / (m - 1) - 1) / (n / (m - 1)))).map (· * (n / (m - 1))) ++
      List.replicate (m - (n + n / (m - 1) - 1) / (n / (m - 1))) n) := by
  have hs : 1 ≤ n / (m - 1) := (Nat.le_div_iff_mul_le (by omega)).2 (by omega)
  have hm : nof n req = m := by
    rcases hr with rfl | ⟨rfl, rfl⟩ | ⟨r, rfl, h, rfl⟩
    · simp [nof, hmn]
    · rfl
    · simp [nof]; omega
  unfold frames
  simp only [hm]
  rw [if_neg (by omega), fdiv_nat n m h2]
  unfold pyRange
  rw [if_neg (by omega), if_neg (by omega), Int.toNat_natCast, Option.map_some, List.length_map, List.length_range]

/-- The number of steps of length `s` below `n`. -/
theorem ceil_spec (n s : ℕ) (hs : 1 ≤ s) (i : ℕ) : i < (n + s - 1) / s ↔ i * s < n := by
  rw [Nat.lt_iff_add_one_le, Nat.le_div_iff_mul_le hs, Nat.add_mul]
  omega

/-! ## Properties -/

/-- **C131** The plan remembered for a logged instant is the one made by the update before it, and the signals at that instant are the sample of
that plan. -/
theorem C131_stored_partial (Ts : K) (hs : 0 < Ts) (q : ℕ) (hq : 1 ≤ q) (plans : List (List A)) (hp : ∀ p ∈ plans, q < p.length)
    (s : Loop K A) (h : Loop.run (q * Ts) Ts plans = some s) (k i : ℕ) (hk : k < plans.length) (hi : i < q) :
    (storage (q * Ts) Ts plans)[k * q + i]? = some plans[k] ∧
    (1 ≤ i → (s.log[k * q + i]?).map (·.2) = plans[k][i]?) := by
  obtain ⟨s', h', -, -, -, hent, -, -⟩ := C127_follow Ts hs q hq plans hp
  rw [h] at h'
  obtain rfl := Option.some.inj h'
  refine ⟨?_, fun h1 => ?_⟩
  · rw [storage_eq Ts hs, flatMap_replicate_get q plans k i hi, List.getElem?_eq_getElem hk]
  · rw [hent k _ (List.getElem?_eq_getElem hk) i h1 hi.le]
    cases plans[k][i]? <;> rfl

/-- **C131** fails at the end of the simulation: no plan is remembered for the last logged instant, although there is one for all others. -/
theorem C131_last_violated (Ts : K) (hs : 0 < Ts) (q : ℕ) (hq : 1 ≤ q) (plans : List (List A)) (hne : plans ≠ [])
    (hp : ∀ p ∈ plans, q < p.length) (s : Loop K A) (h : Loop.run (q * Ts) Ts plans = some s) (j : ℕ) (hj : j < s.log.length) :
    (storage (q * Ts) Ts plans)[j]? = none ↔ j + 1 = s.log.length := by
  obtain ⟨s', h', -, hlen, -⟩ := C127_follow Ts hs q hq plans hp
  rw [h] at h'
  obtain rfl := Option.some.inj h'
  rw [hlen hne] at hj ⊢
  have e : (plans.flatMap (List.replicate q)).length = plans.length * q := by
    rw [List.length_flatMap]; simp
  rw [storage_eq Ts hs, List.getElem?_eq_none_iff, e]
  omega

/-- **C132** The frames of a movie of at least two frames are instants of the simulation in order, from the beginning on, equally spaced by less than
what is needed for the requested number; the last one is less than that away from the end; and there are at least as many as requested. -/
theorem C132_frames_partial (n m : ℕ) (h2 : 2 ≤ m) (hmn : m ≤ n) :
    ∃ (l : List ℕ) (d : ℕ), frames n (some m) = some l ∧ 1 ≤ d ∧ d * (m - 1) ≤ n ∧ n < (d + 1) * (m - 1) ∧
      m ≤ l.length ∧ l.length < 2 * m ∧
      (∀ i (hi : i < l.length), l[i] = i * d ∧ l[i] ≤ n) ∧ ∃ e, l.getLast? = some e ∧ n ≤ e + d := by
  set d := n / (m - 1) with hd
  have hs : 1 ≤ d := (Nat.le_div_iff_mul_le (by omega)).2 (by omega)
  have b1 : d * (m - 1) ≤ n := Nat.div_mul_le_self _ _
  have b2 : n < (d + 1) * (m - 1) := by
    have e1 := Nat.div_add_mod n (m - 1)
    have e2 := Nat.mod_lt n (show 0 < m - 1 by omega)
    rw [← hd] at e1
    nlinarith
  set c := (n + d - 1) / d with hc
  have hcs := ceil_spec n d hs
  rw [← hc] at hcs
  have c1 : m - 1 ≤ c := by
    have := (hcs (m - 2)).2 (by
      obtain ⟨k, rfl⟩ : ∃ k, m = k + 2 := ⟨m - 2, by omega⟩
      simp only [Nat.add_sub_cancel, show k + 2 - 1 = k + 1 by omega] at b1 ⊢
      nlinarith)
    omega
  have c2 : c ≤ 2 * (m - 1) := by
    by_contra hlt
    have := (hcs (2 * (m - 1))).1 (by omega)
    have h3 : (d + 1) * (m - 1) ≤ 2 * (m - 1) * d := by nlinarith
    omega
  have cn : n ≤ c * d := by
    by_contra hlt
    have := (hcs c).2 (by omega)
    omega
  -- one frame is added only if the frames end exactly
  have hex : c < m → c * d = n ∧ m = c + 1 := by
    intro h
    have : c = m - 1 := by omega
    rw [← this] at b1
    exact ⟨by nlinarith, by omega⟩
  refine ⟨_, d, frames_eq n m (some m) h2 hmn (Or.inl rfl), hs, b1, b2, ?_, ?_, ?_, ?_⟩
  · simp only [List.length_append, List.length_map, List.length_range, List.length_replicate, ← hd, ← hc]; omega
  · simp only [List.length_append, List.length_map, List.length_range, List.length_replicate, ← hd, ← hc]; omega
  · intro i hi
    simp only [List.length_append, List.length_map, List.length_range, List.length_replicate, ← hd, ← hc] at hi
    by_cases hic : i < c
    · rw [List.getElem_append_left (by simpa [← hd, ← hc] using hic)]
      have := (hcs i).1 hic
      simp only [List.getElem_map, List.getElem_range, ← hd, true_and]
      omega
    · obtain ⟨e1, e2⟩ := hex (by omega)
      have : i = c := by omega
      rw [List.getElem_append_right (by simpa [← hd, ← hc] using hic)]
      rw [List.getElem_replicate, this]
      exact ⟨e1.symm, le_rfl⟩
  · simp only [← hd, ← hc]
    by_cases h : c < m
    · refine ⟨n, ?_, by omega⟩
      obtain ⟨e1, e2⟩ := hex h
      rw [show m - c = 1 by omega]
      simp
    · refine ⟨(c - 1) * d, ?_, ?_⟩
      · rw [show m - c = 0 by omega, List.replicate_zero, List.append_nil]
        have : c ≠ 0 := by omega
        rw [List.getLast?_eq_getElem?]
        simp only [List.length_map, List.length_range, List.getElem?_map]
        rw [List.getElem?_range (by omega)]
        rfl
      · obtain ⟨k, hk⟩ : ∃ k, c = k + 1 := ⟨c - 1, by omega⟩
        rw [hk] at cn ⊢
        simp only [Nat.add_sub_cancel]
        nlinarith

/-- **C132** Without a requested number, or with a larger one than there are instants, a movie of at least four instants shows all but the last. -/
theorem C132_default (n : ℕ) (hn : 3 ≤ n) (req : Option ℕ) (hr : ∀ r, req = some r → n ≤ r) :
    frames n req = some (List.range n) := by
  have hd : n / (n - 1) = 1 := Nat.div_eq_of_lt_le (by omega) (by omega)
  rw [frames_eq n n req (by omega) le_rfl, hd]
  · simp
  · cases req with
    | none => exact Or.inr (Or.inl ⟨rfl, rfl⟩)
    | some r =>
      rcases Nat.eq_or_lt_of_le (hr r rfl) with h | h
      · exact Or.inl (by rw [h])
      · exact Or.inr (Or.inr ⟨r, rfl, h, rfl⟩)

/-- **C132** fails: if more than half of the instants are requested, the movie shows all of them but the last. -/
theorem C132_number_violated (n m : ℕ) (h2 : 2 ≤ m) (hmn : m < n) (h : n < 2 * (m - 1)) :
    frames n (some m) = some (List.range n) ∧ (List.range n).length ≠ m := by
  have hd : n / (m - 1) = 1 := Nat.div_eq_of_lt_le (by omega) (by omega)
  rw [frames_eq n m (some m) h2 hmn.le (Or.inl rfl), hd]
  refine ⟨?_, by simp; omega⟩
  simp [show m - n = 0 by omega]

/-- **C132** fails: if the requested number fits exactly, the last frame is the last instant, for which no plan is remembered (C131). -/
theorem C132_exact_violated (Ts : K) (hs : 0 < Ts) (q : ℕ) (hq : 1 ≤ q) (plans : List (List A)) (hne : plans ≠ [])
    (hp : ∀ p ∈ plans, q < p.length) (s : Loop K A) (h : Loop.run (q * Ts) Ts plans = some s)
    (m : ℕ) (h2 : 2 ≤ m) (hmn : m ≤ s.log.length - 1) (hdvd : m - 1 ∣ s.log.length - 1) :
    ∃ l, frames (s.log.length - 1) (some m) = some l ∧ ∃ e ∈ l, (storage (q * Ts) Ts plans)[e]? = none := by
  have hlen : s.log.length = plans.length * q + 1 := by
    obtain ⟨s', h', -, hlen, -⟩ := C127_follow Ts hs q hq plans hp
    rw [h] at h'
    obtain rfl := Option.some.inj h'
    exact hlen hne
  set n := s.log.length - 1 with hn
  obtain ⟨d, hd⟩ := hdvd
  have hdn : n / (m - 1) = d := by rw [hd, Nat.mul_div_cancel_left _ (by omega)]
  have hd1 : 1 ≤ d := by
    rcases Nat.eq_zero_or_pos d with rfl | h
    · rw [Nat.mul_zero] at hd; omega
    · exact h
  have hc : (n + d - 1) / d = m - 1 := by
    have hcs := ceil_spec n d hd1
    apply le_antisymm
    · by_contra hlt
      have := (hcs (m - 1)).1 (by omega)
      omega
    · by_contra hlt
      have h1 := mt (hcs ((n + d - 1) / d)).2 (lt_irrefl _)
      have : ((n + d - 1) / d + 1) * d ≤ (m - 1) * d := Nat.mul_le_mul_right _ (by omega)
      rw [← hd] at this
      nlinarith
  refine ⟨_, frames_eq n m (some m) h2 hmn (Or.inl rfl), n, ?_, ?_⟩
  · rw [hdn, hc, show m - (m - 1) = 1 by omega]; simp
  · exact (C131_last_violated Ts hs q hq plans hne hp s h n (by omega)).2 (by omega)

/-- **C132** fails: a movie of one frame ends in an exception. -/
theorem C132_single_violated (n : ℕ) (hn : 1 ≤ n) : frames n (some 1) = none := by
  unfold frames nof
  simp [hn]

/-! ## Examples -/

example : storage (1 / 5 : ℚ) (1 / 10) exPlans = [[10, 11, 12, 13], [10, 11, 12, 13], [12, 14, 16, 18], [12, 14, 16, 18]] := by decide +kernel
example : ∃ s, Loop.run ((2 : ℕ) * (1 / 10 : ℚ)) (1 / 10) exPlans = some s ∧ s.log.length = 5 ∧
    (storage ((2 : ℕ) * (1 / 10 : ℚ)) (1 / 10) exPlans)[1 * 2 + 1]? = some exPlans[1] ∧ (s.log[1 * 2 + 1]?).map (·.2) = some 14 ∧
    (storage ((2 : ℕ) * (1 / 10 : ℚ)) (1 / 10) exPlans)[4]? = none ∧
    ∃ l, frames (s.log.length - 1) (some 3) = some l ∧ ∃ e ∈ l, (storage ((2 : ℕ) * (1 / 10 : ℚ)) (1 / 10) exPlans)[e]? = none := by
  have hp : ∀ p ∈ exPlans, 2 < p.length := by decide
  obtain ⟨s, h, -, hl, -⟩ := C127_follow (1 / 10 : ℚ) (by norm_num) 2 (by norm_num) exPlans hp
  have hl := hl (by decide)
  have hlen : s.log.length = 5 := hl
  obtain ⟨a, b⟩ := C131_stored_partial (1 / 10 : ℚ) (by norm_num) 2 (by norm_num) exPlans hp s h 1 1 (by decide) (by decide)
  exact ⟨s, h, hlen, a, b le_rfl, (C131_last_violated _ (by norm_num) 2 (by norm_num) exPlans (by decide) hp s h 4 (by omega)).2 (by omega),
    C132_exact_violated _ (by norm_num) 2 (by norm_num) exPlans (by decide) hp s h 3 (by norm_num) (by omega) (by rw [hlen]; decide)⟩

-- 11 frames of 100 samples; 30 frames; 60 frames
example : frames 100 (some 11) = some [0, 10, 20, 30, 40, 50, 60, 70, 80, 90, 100] := by decide
example : (frames 100 (some 30)).map List.length = some 34 := by decide +kernel
example : ∃ (l : List ℕ) (d : ℕ), frames 100 (some 30) = some l ∧ 1 ≤ d ∧ d * (30 - 1) ≤ 100 ∧ 100 < (d + 1) * (30 - 1) ∧
      30 ≤ l.length ∧ l.length < 2 * 30 ∧
      (∀ i (hi : i < l.length), l[i] = i * d ∧ l[i] ≤ 100) ∧ ∃ e, l.getLast? = some e ∧ 100 ≤ e + d :=
  C132_frames_partial 100 30 (by norm_num) (by norm_num)
example : frames 100 (some 60) = some (List.range 100) ∧ (List.range 100).length ≠ 60 := C132_number_violated 100 60 (by norm_num) (by norm_num) (by norm_num)
example : frames 100 (some 200) = some (List.range 100) := C132_default 100 (by norm_num) _ (by simp)
example : frames 100 (some 1) = none := C132_single_violated 100 (by norm_num)

end Verif.Timing
