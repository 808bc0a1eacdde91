import Verif.Video.BlockModel
import Verif.Video.BlockLemmas

/-! The fixed-point inverse DCT without wrap-around, and its distance from an integer linear map. -/

namespace Mpeg.Video

/-- `idctRow` with unbounded integers -/
def rowZ (s : Nat → Int) : Nat → Int :=
  if s 1 = 0 ∧ s 2 = 0 ∧ s 3 = 0 ∧ s 4 = 0 ∧ s 5 = 0 ∧ s 6 = 0 ∧ s 7 = 0 then
    fun _ => s 0 * 8
  else
    let x0 := s 0 * 2048 + 128
    let x1 := s 4 * 2048
    let a8 := 565 * (s 1 + s 7)
    let a4 := a8 + 2276 * s 1
    let a5 := a8 - 3406 * s 7
    let b8 := 2408 * (s 5 + s 3)
    let a6 := b8 - 799 * s 5
    let a7 := b8 - 4017 * s 3
    let c8 := x0 + x1
    let c0 := x0 - x1
    let c1 := 1108 * (s 2 + s 6)
    let c2 := c1 - 3784 * s 6
    let c3 := c1 + 1568 * s 2
    let d1 := a4 + a6
    let d4 := a4 - a6
    let d6 := a5 + a7
    let d5 := a5 - a7
    let e7 := c8 + c3
    let e8 := c8 - c3
    let e3 := c0 + c2
    let e0 := c0 - c2
    let e2 := (181 * (d4 + d5) + 128) / 256
    let e4 := (181 * (d4 - d5) + 128) / 256
    fun i =>
      if i = 0 then (e7 + d1) / 256
      else if i = 1 then (e3 + e2) / 256
      else if i = 2 then (e0 + e4) / 256
      else if i = 3 then (e8 + d6) / 256
      else if i = 4 then (e8 - d6) / 256
      else if i = 5 then (e0 - e4) / 256
      else if i = 6 then (e3 - e2) / 256
      else (e7 - d1) / 256

/-- `idctCol` with unbounded integers -/
def colZ (s : Nat → Int) : Nat → Int :=
  let y0 := s 0 * 256 + 8192
  let y1 := s 4 * 256
  let a8 := 565 * (s 1 + s 7) + 4
  let a4 := (a8 + 2276 * s 1) / 8
  let a5 := (a8 - 3406 * s 7) / 8
  let b8 := 2408 * (s 5 + s 3) + 4
  let a6 := (b8 - 799 * s 5) / 8
  let a7 := (b8 - 4017 * s 3) / 8
  let c8 := y0 + y1
  let c0 := y0 - y1
  let c1 := 1108 * (s 2 + s 6) + 4
  let c2 := (c1 - 3784 * s 6) / 8
  let c3 := (c1 + 1568 * s 2) / 8
  let d1 := a4 + a6
  let d4 := a4 - a6
  let d6 := a5 + a7
  let d5 := a5 - a7
  let e7 := c8 + c3
  let e8 := c8 - c3
  let e3 := c0 + c2
  let e0 := c0 - c2
  let e2 := (181 * (d4 + d5) + 128) / 256
  let e4 := (181 * (d4 - d5) + 128) / 256
  fun i =>
    if i = 0 then (e7 + d1) / 16384
    else if i = 1 then (e3 + e2) / 16384
    else if i = 2 then (e0 + e4) / 16384
    else if i = 3 then (e8 + d6) / 16384
    else if i = 4 then (e8 - d6) / 16384
    else if i = 5 then (e0 - e4) / 16384
    else if i = 6 then (e3 - e2) / 16384
    else (e7 - d1) / 16384

/-- The two passes with unbounded integers -/
def rowsZ (b : Block) : Block := fun i => rowZ (fun u => b (8 * (i / 8) + u)) (i % 8)
def colsZ (b : Block) : Block := fun i => colZ (fun v => b (8 * v + i % 8)) (i / 8)
def idctZ (b : Block) : Block := colsZ (rowsZ b)

/-- `65536` times the fixed-point version of `8 √2 C(u) cos((2x+1)uπ/16)` -/
def cosN (x : Nat) : Nat → Int := fun u =>
  ([[524288, 727296, 685056, 616448, 524288, 411904, 283648, 144640],
    [524288, 616486, 283648, -144619, -524288, -727077, -685056, -411956],
    [524288, 411956, -283648, -727077, -524288, 144619, 685056, 616486],
    [524288, 144640, -685056, -411904, 524288, 616448, -283648, -727296],
    [524288, -144640, -685056, 411904, 524288, -616448, -283648, 727296],
    [524288, -411956, -283648, 727077, -524288, -144619, 685056, -616486],
    [524288, -616486, 283648, 144619, -524288, 727077, -685056, 411956],
    [524288, -727296, 685056, -616448, 524288, -411904, 283648, -144640]].getD x []).getD u 0

/-- the linear map the passes approximate -/
def lin (x : Nat) (s : Nat → Int) : Int :=
  cosN x 0 * s 0 + cosN x 1 * s 1 + cosN x 2 * s 2 + cosN x 3 * s 3 + cosN x 4 * s 4 + cosN x 5 * s 5 + cosN x 6 * s 6 +
    cosN x 7 * s 7

theorem rowZ_lin (s : Nat → Int) (x : Nat) (hx : x < 8) :
    -32896 ≤ 65536 * rowZ s x - lin x s ∧ 65536 * rowZ s x - lin x s ≤ 32896 := by
  have hx' : x = 0 ∨ x = 1 ∨ x = 2 ∨ x = 3 ∨ x = 4 ∨ x = 5 ∨ x = 6 ∨ x = 7 := by omega
  unfold rowZ
  split
  · rename_i h
    obtain ⟨h1, h2, h3, h4, h5, h6, h7⟩ := h
    unfold lin
    rw [h1, h2, h3, h4, h5, h6, h7]
    rcases hx' with rfl | rfl | rfl | rfl | rfl | rfl | rfl | rfl <;> simp [cosN] <;> omega
  · rcases hx' with rfl | rfl | rfl | rfl | rfl | rfl | rfl | rfl <;>
      simp only [lin, cosN, List.getD_cons_zero, List.getD_cons_succ] <;>
      simp <;> omega

theorem colZ_lin (s : Nat → Int) (x : Nat) (hx : x < 8) :
    -16785000 ≤ 33554432 * colZ s x - lin x s ∧ 33554432 * colZ s x - lin x s ≤ 16785000 := by
  have hx' : x = 0 ∨ x = 1 ∨ x = 2 ∨ x = 3 ∨ x = 4 ∨ x = 5 ∨ x = 6 ∨ x = 7 := by omega
  unfold colZ
  rcases hx' with rfl | rfl | rfl | rfl | rfl | rfl | rfl | rfl <;>
      simp only [lin, cosN, List.getD_cons_zero, List.getD_cons_succ] <;>
      simp <;> omega


/-- A row whose coefficients are bounded, with the two large products in range, is transformed without overflow. -/
theorem idctRow_exact (s : Nat → Int) (h : ∀ u, u < 8 → -4000 ≤ s u ∧ s u ≤ 4000)
    (hp : -11864000 ≤ 3406 * s 1 - 799 * s 3 - 4017 * s 5 - 2276 * s 7 ∧
      3406 * s 1 - 799 * s 3 - 4017 * s 5 - 2276 * s 7 ≤ 11864000)
    (hm : -11864000 ≤ 2276 * s 1 - 4017 * s 3 + 799 * s 5 + 3406 * s 7 ∧
      2276 * s 1 - 4017 * s 3 + 799 * s 5 + 3406 * s 7 ≤ 11864000) : idctRow s = rowZ s := by
  have h0 := h 0 (by omega)
  have h1 := h 1 (by omega)
  have h2 := h 2 (by omega)
  have h3 := h 3 (by omega)
  have h4 := h 4 (by omega)
  have h5 := h 5 (by omega)
  have h6 := h 6 (by omega)
  have h7 := h 7 (by omega)
  unfold idctRow rowZ
  split
  · rw [i32_of_range (by omega) (by omega)]
  · have x0 : i32 (s 0 * 2048 + 128) = s 0 * 2048 + 128 := i32_of_range (by omega) (by omega)
    have x1 : i32 (s 4 * 2048) = s 4 * 2048 := i32_of_range (by omega) (by omega)
    have a8 : i32 (565 * (s 1 + s 7)) = 565 * (s 1 + s 7) := i32_of_range (by omega) (by omega)
    have b8 : i32 (2408 * (s 5 + s 3)) = 2408 * (s 5 + s 3) := i32_of_range (by omega) (by omega)
    have c1 : i32 (1108 * (s 2 + s 6)) = 1108 * (s 2 + s 6) := i32_of_range (by omega) (by omega)
    simp only [x0, x1, a8, b8, c1]
    have a4 : i32 (565 * (s 1 + s 7) + 2276 * s 1) = 565 * (s 1 + s 7) + 2276 * s 1 := i32_of_range (by omega) (by omega)
    have a5 : i32 (565 * (s 1 + s 7) - 3406 * s 7) = 565 * (s 1 + s 7) - 3406 * s 7 := i32_of_range (by omega) (by omega)
    have a6 : i32 (2408 * (s 5 + s 3) - 799 * s 5) = 2408 * (s 5 + s 3) - 799 * s 5 := i32_of_range (by omega) (by omega)
    have a7 : i32 (2408 * (s 5 + s 3) - 4017 * s 3) = 2408 * (s 5 + s 3) - 4017 * s 3 := i32_of_range (by omega) (by omega)
    have c8 : i32 (s 0 * 2048 + 128 + s 4 * 2048) = s 0 * 2048 + 128 + s 4 * 2048 := i32_of_range (by omega) (by omega)
    have c0 : i32 (s 0 * 2048 + 128 - s 4 * 2048) = s 0 * 2048 + 128 - s 4 * 2048 := i32_of_range (by omega) (by omega)
    have c2 : i32 (1108 * (s 2 + s 6) - 3784 * s 6) = 1108 * (s 2 + s 6) - 3784 * s 6 := i32_of_range (by omega) (by omega)
    have c3 : i32 (1108 * (s 2 + s 6) + 1568 * s 2) = 1108 * (s 2 + s 6) + 1568 * s 2 := i32_of_range (by omega) (by omega)
    simp only [a4, a5, a6, a7, c8, c0, c2, c3]
    generalize ha4 : 565 * (s 1 + s 7) + 2276 * s 1 = A4
    generalize ha5 : 565 * (s 1 + s 7) - 3406 * s 7 = A5
    generalize ha6 : 2408 * (s 5 + s 3) - 799 * s 5 = A6
    generalize ha7 : 2408 * (s 5 + s 3) - 4017 * s 3 = A7
    generalize hc8 : s 0 * 2048 + 128 + s 4 * 2048 = C8
    generalize hc0 : s 0 * 2048 + 128 - s 4 * 2048 = C0
    generalize hc2 : 1108 * (s 2 + s 6) - 3784 * s 6 = C2
    generalize hc3 : 1108 * (s 2 + s 6) + 1568 * s 2 = C3
    have d1 : i32 (A4 + A6) = A4 + A6 := i32_of_range (by omega) (by omega)
    have d4 : i32 (A4 - A6) = A4 - A6 := i32_of_range (by omega) (by omega)
    have d6 : i32 (A5 + A7) = A5 + A7 := i32_of_range (by omega) (by omega)
    have d5 : i32 (A5 - A7) = A5 - A7 := i32_of_range (by omega) (by omega)
    have e7 : i32 (C8 + C3) = C8 + C3 := i32_of_range (by omega) (by omega)
    have e8 : i32 (C8 - C3) = C8 - C3 := i32_of_range (by omega) (by omega)
    have e3 : i32 (C0 + C2) = C0 + C2 := i32_of_range (by omega) (by omega)
    have e0 : i32 (C0 - C2) = C0 - C2 := i32_of_range (by omega) (by omega)
    simp only [d1, d4, d6, d5, e7, e8, e3, e0]
    have e2 : i32 (181 * (A4 - A6 + (A5 - A7)) + 128) = 181 * (A4 - A6 + (A5 - A7)) + 128 :=
      i32_of_range (by omega) (by omega)
    have e4 : i32 (181 * (A4 - A6 - (A5 - A7)) + 128) = 181 * (A4 - A6 - (A5 - A7)) + 128 :=
      i32_of_range (by omega) (by omega)
    simp only [e2, e4]
    have f2 : -8400000 ≤ (181 * (A4 - A6 + (A5 - A7)) + 128) / 256 ∧
      (181 * (A4 - A6 + (A5 - A7)) + 128) / 256 ≤ 8400000 := by omega
    have f4 : -8400000 ≤ (181 * (A4 - A6 - (A5 - A7)) + 128) / 256 ∧
      (181 * (A4 - A6 - (A5 - A7)) + 128) / 256 ≤ 8400000 := by omega
    generalize (181 * (A4 - A6 + (A5 - A7)) + 128) / 256 = E2 at *
    generalize (181 * (A4 - A6 - (A5 - A7)) + 128) / 256 = E4 at *
    funext i
    have g0 : i32 (C8 + C3 + (A4 + A6)) = C8 + C3 + (A4 + A6) := i32_of_range (by omega) (by omega)
    have g7 : i32 (C8 + C3 - (A4 + A6)) = C8 + C3 - (A4 + A6) := i32_of_range (by omega) (by omega)
    have g1 : i32 (C0 + C2 + E2) = C0 + C2 + E2 := i32_of_range (by omega) (by omega)
    have g6 : i32 (C0 + C2 - E2) = C0 + C2 - E2 := i32_of_range (by omega) (by omega)
    have g2 : i32 (C0 - C2 + E4) = C0 - C2 + E4 := i32_of_range (by omega) (by omega)
    have g5 : i32 (C0 - C2 - E4) = C0 - C2 - E4 := i32_of_range (by omega) (by omega)
    have g3 : i32 (C8 - C3 + (A5 + A7)) = C8 - C3 + (A5 + A7) := i32_of_range (by omega) (by omega)
    have g4 : i32 (C8 - C3 - (A5 + A7)) = C8 - C3 - (A5 + A7) := i32_of_range (by omega) (by omega)
    rw [g0, g1, g2, g3, g4, g5, g6, g7]

/-- A column whose entries are bounded, with the two large products in range, is transformed without overflow. -/
theorem idctCol_exact (s : Nat → Int) (h : ∀ u, u < 8 → -40000 ≤ s u ∧ s u ≤ 40000)
    (hp : -94912000 ≤ 3406 * s 1 - 799 * s 3 - 4017 * s 5 - 2276 * s 7 ∧
      3406 * s 1 - 799 * s 3 - 4017 * s 5 - 2276 * s 7 ≤ 94912000)
    (hm : -94912000 ≤ 2276 * s 1 - 4017 * s 3 + 799 * s 5 + 3406 * s 7 ∧
      2276 * s 1 - 4017 * s 3 + 799 * s 5 + 3406 * s 7 ≤ 94912000) : idctCol s = colZ s := by
  have h0 := h 0 (by omega)
  have h1 := h 1 (by omega)
  have h2 := h 2 (by omega)
  have h3 := h 3 (by omega)
  have h4 := h 4 (by omega)
  have h5 := h 5 (by omega)
  have h6 := h 6 (by omega)
  have h7 := h 7 (by omega)
  unfold idctCol colZ
  have x0 : i32 (s 0 * 256 + 8192) = s 0 * 256 + 8192 := i32_of_range (by omega) (by omega)
  have x1 : i32 (s 4 * 256) = s 4 * 256 := i32_of_range (by omega) (by omega)
  have a8 : i32 (565 * (s 1 + s 7) + 4) = 565 * (s 1 + s 7) + 4 := i32_of_range (by omega) (by omega)
  have b8 : i32 (2408 * (s 5 + s 3) + 4) = 2408 * (s 5 + s 3) + 4 := i32_of_range (by omega) (by omega)
  have c1 : i32 (1108 * (s 2 + s 6) + 4) = 1108 * (s 2 + s 6) + 4 := i32_of_range (by omega) (by omega)
  simp only [x0, x1, a8, b8, c1]
  have a4 : i32 (565 * (s 1 + s 7) + 4 + 2276 * s 1) = 565 * (s 1 + s 7) + 4 + 2276 * s 1 := i32_of_range (by omega) (by omega)
  have a5 : i32 (565 * (s 1 + s 7) + 4 - 3406 * s 7) = 565 * (s 1 + s 7) + 4 - 3406 * s 7 := i32_of_range (by omega) (by omega)
  have a6 : i32 (2408 * (s 5 + s 3) + 4 - 799 * s 5) = 2408 * (s 5 + s 3) + 4 - 799 * s 5 := i32_of_range (by omega) (by omega)
  have a7 : i32 (2408 * (s 5 + s 3) + 4 - 4017 * s 3) = 2408 * (s 5 + s 3) + 4 - 4017 * s 3 := i32_of_range (by omega) (by omega)
  have c8 : i32 (s 0 * 256 + 8192 + s 4 * 256) = s 0 * 256 + 8192 + s 4 * 256 := i32_of_range (by omega) (by omega)
  have c0 : i32 (s 0 * 256 + 8192 - s 4 * 256) = s 0 * 256 + 8192 - s 4 * 256 := i32_of_range (by omega) (by omega)
  have c2 : i32 (1108 * (s 2 + s 6) + 4 - 3784 * s 6) = 1108 * (s 2 + s 6) + 4 - 3784 * s 6 := i32_of_range (by omega) (by omega)
  have c3 : i32 (1108 * (s 2 + s 6) + 4 + 1568 * s 2) = 1108 * (s 2 + s 6) + 4 + 1568 * s 2 := i32_of_range (by omega) (by omega)
  simp only [a4, a5, a6, a7, c8, c0, c2, c3]
  have ha4 : ∃ r : Int, 0 ≤ r ∧ r < 8 ∧ 8 * ((565 * (s 1 + s 7) + 4 + 2276 * s 1) / 8) = 565 * (s 1 + s 7) + 4 + 2276 * s 1 - r :=
    ⟨(565 * (s 1 + s 7) + 4 + 2276 * s 1) % 8, by omega, by omega, by omega⟩
  have ha5 : ∃ r : Int, 0 ≤ r ∧ r < 8 ∧ 8 * ((565 * (s 1 + s 7) + 4 - 3406 * s 7) / 8) = 565 * (s 1 + s 7) + 4 - 3406 * s 7 - r :=
    ⟨(565 * (s 1 + s 7) + 4 - 3406 * s 7) % 8, by omega, by omega, by omega⟩
  have ha6 : ∃ r : Int, 0 ≤ r ∧ r < 8 ∧ 8 * ((2408 * (s 5 + s 3) + 4 - 799 * s 5) / 8) = 2408 * (s 5 + s 3) + 4 - 799 * s 5 - r :=
    ⟨(2408 * (s 5 + s 3) + 4 - 799 * s 5) % 8, by omega, by omega, by omega⟩
  have ha7 : ∃ r : Int, 0 ≤ r ∧ r < 8 ∧ 8 * ((2408 * (s 5 + s 3) + 4 - 4017 * s 3) / 8) = 2408 * (s 5 + s 3) + 4 - 4017 * s 3 - r :=
    ⟨(2408 * (s 5 + s 3) + 4 - 4017 * s 3) % 8, by omega, by omega, by omega⟩
  have hc2 : ∃ r : Int, 0 ≤ r ∧ r < 8 ∧ 8 * ((1108 * (s 2 + s 6) + 4 - 3784 * s 6) / 8) = 1108 * (s 2 + s 6) + 4 - 3784 * s 6 - r :=
    ⟨(1108 * (s 2 + s 6) + 4 - 3784 * s 6) % 8, by omega, by omega, by omega⟩
  have hc3 : ∃ r : Int, 0 ≤ r ∧ r < 8 ∧ 8 * ((1108 * (s 2 + s 6) + 4 + 1568 * s 2) / 8) = 1108 * (s 2 + s 6) + 4 + 1568 * s 2 - r :=
    ⟨(1108 * (s 2 + s 6) + 4 + 1568 * s 2) % 8, by omega, by omega, by omega⟩
  obtain ⟨r4, p4, q4, ha4⟩ := ha4
  obtain ⟨r5, p5, q5, ha5⟩ := ha5
  obtain ⟨r6, p6, q6, ha6⟩ := ha6
  obtain ⟨r7, p7, q7, ha7⟩ := ha7
  obtain ⟨r2, p2, q2, hc2⟩ := hc2
  obtain ⟨r3, p3, q3, hc3⟩ := hc3
  generalize (565 * (s 1 + s 7) + 4 + 2276 * s 1) / 8 = A4 at *
  generalize (565 * (s 1 + s 7) + 4 - 3406 * s 7) / 8 = A5 at *
  generalize (2408 * (s 5 + s 3) + 4 - 799 * s 5) / 8 = A6 at *
  generalize (2408 * (s 5 + s 3) + 4 - 4017 * s 3) / 8 = A7 at *
  generalize hc8 : s 0 * 256 + 8192 + s 4 * 256 = C8 at *
  generalize hc0 : s 0 * 256 + 8192 - s 4 * 256 = C0 at *
  generalize (1108 * (s 2 + s 6) + 4 - 3784 * s 6) / 8 = C2 at *
  generalize (1108 * (s 2 + s 6) + 4 + 1568 * s 2) / 8 = C3 at *
  clear x0 x1 a8 b8 c1 a4 a5 a6 a7 c8 c0 c2 c3
  have d1 : i32 (A4 + A6) = A4 + A6 := i32_of_range (by omega) (by omega)
  have d4 : i32 (A4 - A6) = A4 - A6 := i32_of_range (by omega) (by omega)
  have d6 : i32 (A5 + A7) = A5 + A7 := i32_of_range (by omega) (by omega)
  have d5 : i32 (A5 - A7) = A5 - A7 := i32_of_range (by omega) (by omega)
  have e7 : i32 (C8 + C3) = C8 + C3 := i32_of_range (by omega) (by omega)
  have e8 : i32 (C8 - C3) = C8 - C3 := i32_of_range (by omega) (by omega)
  have e3 : i32 (C0 + C2) = C0 + C2 := i32_of_range (by omega) (by omega)
  have e0 : i32 (C0 - C2) = C0 - C2 := i32_of_range (by omega) (by omega)
  simp only [d1, d4, d6, d5, e7, e8, e3, e0]
  have e2 : i32 (181 * (A4 - A6 + (A5 - A7)) + 128) = 181 * (A4 - A6 + (A5 - A7)) + 128 :=
    i32_of_range (by omega) (by omega)
  have e4 : i32 (181 * (A4 - A6 - (A5 - A7)) + 128) = 181 * (A4 - A6 - (A5 - A7)) + 128 :=
    i32_of_range (by omega) (by omega)
  simp only [e2, e4]
  have f2 : -8400000 ≤ (181 * (A4 - A6 + (A5 - A7)) + 128) / 256 ∧
    (181 * (A4 - A6 + (A5 - A7)) + 128) / 256 ≤ 8400000 := by omega
  have f4 : -8400000 ≤ (181 * (A4 - A6 - (A5 - A7)) + 128) / 256 ∧
    (181 * (A4 - A6 - (A5 - A7)) + 128) / 256 ≤ 8400000 := by omega
  generalize (181 * (A4 - A6 + (A5 - A7)) + 128) / 256 = E2 at *
  generalize (181 * (A4 - A6 - (A5 - A7)) + 128) / 256 = E4 at *
  funext i
  have g0 : i32 (C8 + C3 + (A4 + A6)) = C8 + C3 + (A4 + A6) := i32_of_range (by omega) (by omega)
  have g7 : i32 (C8 + C3 - (A4 + A6)) = C8 + C3 - (A4 + A6) := i32_of_range (by omega) (by omega)
  have g1 : i32 (C0 + C2 + E2) = C0 + C2 + E2 := i32_of_range (by omega) (by omega)
  have g6 : i32 (C0 + C2 - E2) = C0 + C2 - E2 := i32_of_range (by omega) (by omega)
  have g2 : i32 (C0 - C2 + E4) = C0 - C2 + E4 := i32_of_range (by omega) (by omega)
  have g5 : i32 (C0 - C2 - E4) = C0 - C2 - E4 := i32_of_range (by omega) (by omega)
  have g3 : i32 (C8 - C3 + (A5 + A7)) = C8 - C3 + (A5 + A7) := i32_of_range (by omega) (by omega)
  have g4 : i32 (C8 - C3 - (A5 + A7)) = C8 - C3 - (A5 + A7) := i32_of_range (by omega) (by omega)
  rw [g0, g1, g2, g3, g4, g5, g6, g7]

end Mpeg.Video
