import Verif.Model.Utils
import Mathlib.Tactic.FieldSimp
import Mathlib.Tactic.Ring
import Mathlib.Tactic.NormNum
import Mathlib.Tactic.Linarith
import Mathlib.Tactic.Positivity

/-!
# C53: indentation and plasma scales
-/

namespace Bolt

theorem isLineBreak_nl : isLineBreak '\n' = true := by decide
theorem isLineBreak_cr : isLineBreak '\r' = true := by decide
theorem isLineBreak_space : isLineBreak ' ' = false := by decide

theorem splitLinesAux_line (line : List Char) (h : ∀ c ∈ line, isLineBreak c = false) (acc rest : List Char) :
    splitLinesAux acc (line ++ rest) = splitLinesAux (line.reverse ++ acc) rest := by
  induction line generalizing acc with
  | nil => rfl
  | cons c line ih =>
      have hc := h c (by simp)
      have hr : c ≠ '\r' := by rintro rfl; rw [isLineBreak_cr] at hc; cases hc
      rw [List.cons_append, splitLinesAux, if_neg hr, hc, if_neg (by simp), ih fun d hd => h d (by simp [hd])]
      simp

theorem splitLinesAux_nl (acc rest : List Char) : splitLinesAux acc ('\n' :: rest) = acc.reverse :: splitLinesAux [] rest := by
  rw [splitLinesAux, if_neg (by decide), if_pos isLineBreak_nl]

theorem splitLinesAux_end (acc : List Char) (h : acc ≠ []) : splitLinesAux acc [] = [acc.reverse] := by
  cases acc with
  | nil => exact absurd rfl h
  | cons a l => rw [splitLinesAux]; simp

/-- No line of a split text contains a line break. -/
theorem splitLinesAux_no_break (txt : List Char) : ∀ acc : List Char, (∀ c ∈ acc, isLineBreak c = false) →
    ∀ line ∈ splitLinesAux acc txt, ∀ c ∈ line, isLineBreak c = false := by
  induction h : txt.length using Nat.strong_induction_on generalizing txt with
  | _ n ih =>
      intro acc hacc line hline
      have hrev : ∀ c ∈ acc.reverse, isLineBreak c = false := fun c hc => hacc c (List.mem_reverse.mp hc)
      cases txt with
      | nil =>
          cases acc with
          | nil => rw [splitLinesAux] at hline; simp at hline
          | cons a l =>
              rw [splitLinesAux_end _ (by simp), List.mem_singleton] at hline
              rw [hline]; exact hrev
      | cons c rest =>
          have hl : rest.length < n := by rw [← h]; simp
          rw [splitLinesAux] at hline
          split_ifs at hline with h1 h2
          · rcases List.mem_cons.mp hline with rfl | hm
            · exact hrev
            · exact ih (dropLF rest).length ((dropLF_length rest).trans_lt hl) (dropLF rest) rfl [] (by simp) line hm
          · rcases List.mem_cons.mp hline with rfl | hm
            · exact hrev
            · exact ih rest.length hl rest rfl [] (by simp) line hm
          · refine ih rest.length hl rest rfl (c :: acc) ?_ line hline
            intro d hd
            rcases List.mem_cons.mp hd with rfl | hd
            · simpa using h2
            · exact hacc d hd

theorem splitLines_no_break (txt : List Char) : ∀ line ∈ splitLines txt, ∀ c ∈ line, isLineBreak c = false :=
  splitLinesAux_no_break txt [] (by simp)

/-- Splitting joined lines gives the lines back, unless the last one is empty. -/
theorem splitLines_joinLines (lines : List (List Char)) (h : ∀ line ∈ lines, ∀ c ∈ line, isLineBreak c = false)
    (hlast : ∀ line, lines.getLast? = some line → line ≠ []) : splitLines (joinLines lines) = lines := by
  induction lines with
  | nil => simp [joinLines, splitLines, splitLinesAux]
  | cons a l ih =>
      cases l with
      | nil =>
          have ha : a ≠ [] := hlast a rfl
          rw [joinLines, List.intercalate_singleton, splitLines]
          have := splitLinesAux_line a (h a (by simp)) [] []
          rw [List.append_nil, List.append_nil] at this
          rw [this, splitLinesAux_end _ (by simpa using ha), List.reverse_reverse]
      | cons b l =>
          have hj : joinLines (a :: b :: l) = a ++ '\n' :: joinLines (b :: l) := by
            simp [joinLines, List.intercalate, List.intersperse]
          rw [hj, splitLines, splitLinesAux_line a (h a (by simp)), splitLinesAux_nl, List.append_nil, List.reverse_reverse]
          congr 1
          exact ih (fun line hl => h line (by simp [hl])) fun line hl => hlast line (by rw [List.getLast?_cons_cons]; exact hl)

/-- C53: the lines of the indented text are the lines of the text, each preceded by four spaces per stop. -/
theorem C53_indent_lines (txt : List Char) (stops : ℤ) (h : 0 < stops) :
    splitLines (indent txt stops) = (splitLines txt).map fun line => List.replicate (4 * stops).toNat ' ' ++ line := by
  rw [indent, splitLines_joinLines]
  · intro line hl c hc
    obtain ⟨line', hl', rfl⟩ := List.mem_map.mp hl
    rcases List.mem_append.mp hc with hc | hc
    · rw [(List.mem_replicate.mp hc).2, isLineBreak_space]
    · exact splitLines_no_break txt line' hl' c hc
  · intro line hl
    obtain ⟨line', -, rfl⟩ := List.mem_map.mp (List.mem_of_getLast? hl)
    have hs : (4 * stops).toNat ≠ 0 := by omega
    simp [hs]

/-- C53: the number of lines does not change. -/
theorem C53_indent_line_count (txt : List Char) (stops : ℤ) (h : 0 < stops) :
    (splitLines (indent txt stops)).length = (splitLines txt).length := by
  rw [C53_indent_lines txt stops h, List.length_map]

/-- C53: indenting twice adds up. -/
theorem C53_indent_twice (txt : List Char) (a b : ℤ) (ha : 0 < a) (hb : 0 ≤ b) : indent (indent txt a) b = indent txt (a + b) := by
  rw [indent, C53_indent_lines txt a ha, List.map_map, indent]
  congr 1
  refine List.map_congr_left fun line _ => ?_
  rw [Function.comp_apply, ← List.append_assoc, List.replicate_append_replicate]
  congr 2
  omega

/-- C53: without a stop (or with a negative number) the text keeps its lines but every line break becomes `\n` and a final one is dropped. -/
theorem C53_indent_zero (txt : List Char) (stops : ℤ) (h : stops ≤ 0) : indent txt stops = joinLines (splitLines txt) := by
  have : (4 * stops).toNat = 0 := by omega
  simp [indent, this]

/-- C53: the indented text contains no line break other than `\n` and does not end in one. -/
theorem C53_indent_newlines (txt : List Char) (stops : ℤ) (h : 0 < stops) :
    (∀ c ∈ indent txt stops, isLineBreak c = true → c = '\n') ∧ (indent txt stops).getLast? ≠ some '\n' := by
  have mem : ∀ (lines : List (List Char)) (c : Char), c ∈ joinLines lines → c = '\n' ∨ ∃ line ∈ lines, c ∈ line := by
    intro lines
    induction lines with
    | nil => simp [joinLines]
    | cons a l ih =>
        intro c hc
        cases l with
        | nil =>
            rw [joinLines, List.intercalate_singleton] at hc
            exact .inr ⟨a, by simp, hc⟩
        | cons b l =>
            have hj : joinLines (a :: b :: l) = a ++ '\n' :: joinLines (b :: l) := by
              simp [joinLines, List.intercalate, List.intersperse]
            rw [hj] at hc
            rcases List.mem_append.mp hc with hc | hc
            · exact .inr ⟨a, by simp, hc⟩
            · rcases List.mem_cons.mp hc with rfl | hc
              · exact .inl rfl
              · rcases ih c hc with h | ⟨line, hl, hm⟩
                · exact .inl h
                · exact .inr ⟨line, by simp [hl], hm⟩
  have nb : ∀ line ∈ (splitLines txt).map fun line => List.replicate (4 * stops).toNat ' ' ++ line, ∀ c ∈ line, isLineBreak c = false := by
    intro line hl c hc
    obtain ⟨line', hl', rfl⟩ := List.mem_map.mp hl
    rcases List.mem_append.mp hc with hc | hc
    · rw [(List.mem_replicate.mp hc).2, isLineBreak_space]
    · exact splitLines_no_break txt line' hl' c hc
  constructor
  · intro c hc hb
    rcases mem _ c hc with h | ⟨line, hl, hm⟩
    · exact h
    · rw [nb line hl c hm] at hb
      cases hb
  · have last : ∀ lines : List (List Char), (∀ line ∈ lines, line ≠ []) → (∀ line ∈ lines, ∀ c ∈ line, isLineBreak c = false) →
        (joinLines lines).getLast? ≠ some '\n' := by
      intro lines
      induction lines with
      | nil => simp [joinLines]
      | cons a l ih =>
          intro hne hnb
          cases l with
          | nil =>
              rw [joinLines, List.intercalate_singleton]
              intro hh
              have := hnb a (by simp) _ (List.mem_of_getLast? hh)
              rw [isLineBreak_nl] at this
              cases this
          | cons b l =>
              have hj : joinLines (a :: b :: l) = a ++ '\n' :: joinLines (b :: l) := by
                simp [joinLines, List.intercalate, List.intersperse]
              have ih' := ih (fun line hl => hne line (by simp [hl])) (fun line hl => hnb line (by simp [hl]))
              have hjn : joinLines (b :: l) ≠ [] := by
                cases l with
                | nil => rw [joinLines, List.intercalate_singleton]; exact hne b (by simp)
                | cons c l => simp [joinLines, List.intercalate, List.intersperse]
              rw [hj, List.getLast?_append_of_ne_nil _ (by simp)]
              obtain ⟨d, l', hd⟩ := List.exists_cons_of_ne_nil hjn
              rw [hd] at ih' ⊢
              rw [List.getLast?_cons_cons]
              exact ih'
    refine last _ ?_ nb
    intro line hl
    obtain ⟨line', -, rfl⟩ := List.mem_map.mp hl
    have hs : (4 * stops).toNat ≠ 0 := by omega
    simp [hs]

/-- C53: the Debye length times the plasma frequency is the thermal speed. -/
theorem C53_debye (n T e k eps m : ℝ) (hn : 0 < n) (hT : 0 ≤ T) (he : e ≠ 0) (hk : 0 ≤ k) (heps : 0 < eps) (hm : 0 < m) :
    debyeLength n T e k eps * plasmaFrequency n e m eps = thermalSpeed T m k := by
  have he2 : 0 < e ^ 2 := by positivity
  rw [debyeLength, plasmaFrequency, thermalSpeed, ← Real.sqrt_mul (by positivity)]
  congr 1
  field_simp

/-- C53: light crosses the skin depth in one inverse plasma frequency. -/
theorem C53_skin_depth (n e c m eps : ℝ) (hn : 0 < n) (he : e ≠ 0) (heps : 0 < eps) (hm : 0 < m) :
    skinDepth n e c m eps * plasmaFrequency n e m eps = c := by
  have he2 : 0 < e ^ 2 := by positivity
  rw [skinDepth, plasmaFrequency, mul_assoc, ← Real.sqrt_mul (by positivity)]
  have : eps * m / (n * e ^ 2) * (n * e ^ 2 / (m * eps)) = 1 := by field_simp
  rw [this, Real.sqrt_one, mul_one]

/-- C53: a particle turning at the cyclotron frequency on its gyroradius moves at its speed. -/
theorem C53_gyroradius (v B e m : ℝ) (hB : B ≠ 0) (he : e ≠ 0) (hm : m ≠ 0) : gyroradius v B e m * cyclotronFrequency B e m = v := by
  rw [gyroradius, cyclotronFrequency]
  field_simp

/-- C53: a wave moving at its speed for its crossing time crosses the box, for nonzero field, density, mass, permeability and temperature. -/
theorem C53_crossing (l B n m mu T k gamma : ℝ) (hB : B ≠ 0) (h1 : 0 < n * m * mu) (h2 : 0 < gamma * k * T) :
    alfvenVelocity B n m mu * alfvenCrossingTime l B n m mu = l ∧ soundSpeed T k gamma * soundCrossingTime l T k gamma = l := by
  have s1 := (Real.sqrt_pos.mpr h1).ne'
  have s2 := (Real.sqrt_pos.mpr h2).ne'
  constructor
  · rw [alfvenVelocity, alfvenCrossingTime]
    field_simp
  · rw [soundSpeed, soundCrossingTime]
    field_simp

/-- C53: the sound speed leaves the mass out: it is `√γ` thermal speeds only for particles of mass one. -/
theorem C53_sound_speed_ignores_mass (T m k gamma : ℝ) (hT : 0 < T) (hk : 0 < k) (hg : 0 < gamma) (hm : 0 < m) :
    soundSpeed T k gamma = √gamma * thermalSpeed T m k ↔ m = 1 := by
  rw [soundSpeed, thermalSpeed, ← Real.sqrt_mul hg.le, Real.sqrt_inj (by positivity) (by positivity)]
  constructor
  · intro h
    field_simp at h
    linarith
  · rintro rfl
    rw [div_one]; ring

/-- C53: all scales are monotone in the way their names suggest: denser plasmas have higher plasma frequency and shorter Debye length. -/
theorem C53_density_scaling (n n' T e k eps m : ℝ) (hn : 0 < n) (h : n ≤ n') (hT : 0 ≤ T) (he : e ≠ 0) (hk : 0 ≤ k) (heps : 0 < eps)
    (hm : 0 < m) : plasmaFrequency n e m eps ≤ plasmaFrequency n' e m eps ∧ debyeLength n' T e k eps ≤ debyeLength n T e k eps := by
  have he2 : 0 < e ^ 2 := by positivity
  constructor
  · exact Real.sqrt_le_sqrt (by gcongr)
  · exact Real.sqrt_le_sqrt (by gcongr)

/-- A text with mixed line breaks and an empty line. -/
example : indent "a\r\n\nbc\n".toList 1 = "    a\n    \n    bc".toList := by
  simp [indent, splitLines, splitLinesAux, dropLF, joinLines, isLineBreak, List.intercalate, List.intersperse]

/-- Without a stop the law of adding up fails: `"\n"` becomes empty. -/
example : indent (indent "\n".toList 0) 1 ≠ indent "\n".toList (0 + 1) := by
  simp [indent, splitLines, splitLinesAux, joinLines, isLineBreak, List.intercalate]

/-- Debye length and plasma frequency of a concrete plasma. -/
example : debyeLength 4 9 1 1 1 * plasmaFrequency 4 1 1 1 = 3 := by
  rw [C53_debye 4 9 1 1 1 1 (by norm_num) (by norm_num) (by norm_num) (by norm_num) (by norm_num) (by norm_num), thermalSpeed,
    show (1 : ℝ) * 9 / 1 = 3 ^ 2 by norm_num, Real.sqrt_sq (by norm_num)]

end Bolt
