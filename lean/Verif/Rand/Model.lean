import Verif.Flow.MultiFlow
import Verif.Py.Rounding

/-!
Random numbers: src/random.cpp, include/richdem/common/random.hpp, and their use in Fairfield1991.hpp.  The engine is
`std::mt19937`, modelled word by word; floating-point numbers are rationals rounded to 53 binary digits (no overflow,
no underflow).  `std::generate_canonical`, `std::uniform_real_distribution` and `std::normal_distribution` are those of
libstdc++; the two numbers that the polar method makes from an engine are a parameter (`polar`).
-/

namespace RichDEM.Rand

open Py (roundBits)

/-- `std::mt19937`: the last 624 words of its sequence, oldest first. -/
abbrev Engine := List Nat

/-- The recurrence of `std::mt19937` that makes the initial words from a seed: word `i` from word `i-1`. -/
def seedWord (x i : Nat) : Nat := (1812433253 * (x ^^^ (x >>> 30)) + i) % 2 ^ 32

/-- The initial words from number `i` on, `k` of them, if word `i` is `x`. -/
def seedWords : Nat → Nat → Nat → List Nat
  | 0, _, _ => []
  | k + 1, x, i => x :: seedWords k (seedWord x (i + 1)) (i + 1)

/-- `mt19937::seed(value)`: the value is reduced modulo 2^32. -/
def mtSeed (value : Nat) : Engine := seedWords 624 (value % 2 ^ 32) 0

/-- The next word of the sequence. -/
def mtWord (e : Engine) : Nat :=
  let y := (e.getD 0 0 &&& 0x80000000) ||| (e.getD 1 0 &&& 0x7fffffff)
  (e.getD 397 0 ^^^ (y >>> 1)) ^^^ (if y % 2 = 0 then 0 else 0x9908b0df)

/-- The tempering of `mt19937`. -/
def temper (x : Nat) : Nat :=
  let y := x ^^^ (x >>> 11)
  let y := y ^^^ (((y <<< 7) % 2 ^ 32) &&& 0x9d2c5680)
  let y := y ^^^ (((y <<< 15) % 2 ^ 32) &&& 0xefc60000)
  y ^^^ (y >>> 18)

/-- `mt19937::operator()`. -/
def draw (e : Engine) : Nat × Engine := (temper (mtWord e), e.tail ++ [mtWord e])

/-- `std::generate_canonical<double, 53>` (libstdc++): two draws; a result of 1 is replaced by the number below. -/
def canonical (e : Engine) : ℚ × Engine :=
  let a := draw e
  let b := draw a.2
  let v := roundBits 53 ((a.1 : ℚ) + (b.1 : ℚ) * 2 ^ 32) / 2 ^ 64
  (if 1 ≤ v then 1 - 1 / 2 ^ 53 else v, b.2)

/-- The static variables: `e` of `rand_engine` (random.cpp:25) and, of the arrays of distributions, the numbers kept by
`normal_distribution` (random.cpp:64); the other distributions keep nothing. -/
structure State where
  eng : Nat → Engine
  saved : Nat → Option ℚ

/-- random.hpp:19 (`PRNG_THREAD_MAX`): the length of those arrays. -/
def threadMax : Nat := 32

/-- random.cpp:24-27 (`rand_engine`) called by thread `t`; beyond the array the behaviour is undefined (`none`). -/
def randEngine (s : State) (t : Nat) : Option Engine := if t < threadMax then some (s.eng t) else none

/-- random.cpp:35-43: what one thread does; `entropy t` is what seeding from the random device would give. -/
def seedOne (seed : Nat) (entropy : Nat → Engine) (s : State) (t : Nat) : Option State :=
  (randEngine s t).map fun _ =>
    let e := if seed = 0 then entropy t else mtSeed (seed * t % 2 ^ 64)
    { s with eng := Function.update s.eng t e }

/-- random.cpp:32-45 (`seed_rand`): the threads of the team, in the order `order` in which they enter the critical
section. -/
def seedRand (seed : Nat) (entropy : Nat → Engine) (order : List Nat) (s : State) : Option State :=
  order.foldlM (seedOne seed entropy) s

/-- random.cpp:55-59 (`uniform_rand_real`) called by thread `t`: rounded after each operation. -/
def uniformReal (lo hi : ℚ) (t : Nat) (s : State) : Option (ℚ × State) :=
  (randEngine s t).map fun e =>
    let c := canonical e
    (roundBits 53 (roundBits 53 (c.1 * roundBits 53 (hi - lo)) + lo), { s with eng := Function.update s.eng t c.2 })

/-- random.cpp:62-66 (`normal_rand`) called by thread `t`: every other call takes the number kept by the last one. -/
def normalRand (polar : Engine → (ℚ × ℚ) × Engine) (mean sd : ℚ) (t : Nat) (s : State) : Option (ℚ × State) :=
  (randEngine s t).map fun e =>
    match s.saved t with
    | some v => (roundBits 53 (roundBits 53 (v * sd) + mean), { s with saved := Function.update s.saved t none })
    | none =>
      let p := polar e
      (roundBits 53 (roundBits 53 (p.1.2 * sd) + mean),
        { eng := Function.update s.eng t p.2, saved := Function.update s.saved t (some p.1.1) })

/-- random.cpp:68-72 (`SaveRandomState`).  That `<<` and `>>` keep an engine is the standard's promise. -/
def saveState (t : Nat) (s : State) : Option Engine := randEngine s t

/-- random.cpp:74-77 (`SetRandomState`). -/
def setState (e : Engine) (t : Nat) (s : State) : Option State :=
  (randEngine s t).map fun _ => { s with eng := Function.update s.eng t e }

/-- A call for a random number. -/
inductive Call where
  | real (lo hi : ℚ)
  | normal (mean sd : ℚ)

/-- One call by thread `t`. -/
def call (polar : Engine → (ℚ × ℚ) × Engine) (t : Nat) (k : Call) (s : State) : Option (ℚ × State) :=
  match k with
  | .real lo hi => uniformReal lo hi t s
  | .normal mean sd => normalRand polar mean sd t s

/-- A sequence of calls, each with the thread that makes it; the numbers it gets, and the state afterwards. -/
def calls (polar : Engine → (ℚ × ℚ) × Engine) : List (Nat × Call) → State → Option (List ℚ × State)
  | [], s => some ([], s)
  | (t, k) :: l, s => (call polar t k s).bind fun r => (calls polar l r.2).map fun r' => (r.1 :: r'.1, r'.2)

/-! ### Rho8 and Rho4 -/

/-- Fairfield1991.hpp:43-69, with the random numbers drawn from the engine of the thread as they are needed: for diagonal
neighbours (Rho8) or the northern and southern ones (Rho4) that are lower. -/
def rhoDraws (w h : Nat) (t : Topo) (dem : Cell → ℚ) (nd : ℚ) (c : Cell) :
    List Nat → Nat × ℚ → Engine → (Nat × ℚ) × Engine
  | [], s, e => (s, e)
  | n :: l, s, e =>
    if inGrid w h (nbr t c n) = false then rhoDraws w h t dem nd c l s e
    else if dem (nbr t c n) = nd then rhoDraws w h t dem nd c l s e
    else if dem c ≤ dem (nbr t c n) then rhoDraws w h t dem nd c l s e
    else
      let u := if n % 2 = 0 then canonical e else (0, e)
      let v := (dem c - dem (nbr t c n)) * rhoFactor t n u.1
      rhoDraws w h t dem nd c l (if s.2 < v then (n, v) else s) u.2

/-- Fairfield1991.hpp:31-77: one cell. -/
def rhoCell (w h : Nat) (t : Topo) (dem : Cell → ℚ) (nd : ℚ) (e : Engine) (c : Cell) : Props1 × Engine :=
  if dem c = nd then (.noData, e)
  else if isEdgeCell w h c then (.noFlow, e)
  else
    let r := rhoDraws w h t dem nd c (dirs t) (0, 0) e
    (if r.1.1 = 0 then .noFlow else .flow r.1.1, r.2)

/-- The cells of one thread, one after the other: the raster as far as the thread writes it. -/
def rhoThread (w h : Nat) (t : Topo) (dem : Cell → ℚ) (nd : ℚ) : List Cell → Engine → (Cell → Props1) → Cell → Props1
  | [], _, p => p
  | c :: l, e, p =>
    let r := rhoCell w h t dem nd e c
    rhoThread w h t dem nd l r.2 (Function.update p c r.1)

/-- Fairfield1991.hpp:11-82 (`FM_FairfieldLeymarie`) by the threads `0 … m-1`, of which `i` has the cells `work i`.  The
threads share neither engines nor cells, so that they can be taken one after the other (C107).  With more threads than
engines the behaviour is undefined. -/
def fmRho (w h : Nat) (t : Topo) (dem : Cell → ℚ) (nd : ℚ) (m : Nat) (work : Nat → List Cell) (s : State) :
    Option (Cell → Props1) :=
  if threadMax < m then none
  else some ((List.range m).foldl (fun p i => rhoThread w h t dem nd (work i) (s.eng i) p) (fun _ => .noFlow))

end RichDEM.Rand
