import Verif.Model.Outcome
/-!
# Model of `src/Common/medianfilter.cpp`

Arrays are memory blocks with a size whose cells may be uninitialised. Every access outside the
block and every read of an uninitialised cell is undefined behaviour. `element` (`float`) is
modelled by exact rationals.
-/
namespace Verif.Median

/-- A block of memory. -/
structure Mem where
  size : Nat
  cell : Nat → Option Rat

/-- `new element[n]`, `malloc`, a local array: nothing is initialised. -/
def Mem.alloc (n : Nat) : Mem := ⟨n, fun _ => none⟩

/-- A block holding a list. -/
def Mem.ofList (l : List Rat) : Mem := ⟨l.length, fun i => l[i]?⟩

def Mem.read (m : Mem) (i : Nat) : Out Rat :=
  if i < m.size then
    match m.cell i with
    | some x => .ok x
    | none => .ub
  else .ub

def Mem.write (m : Mem) (i : Nat) (x : Rat) : Out Mem :=
  if i < m.size then .ok { m with cell := fun k => if k = i then some x else m.cell k } else .ub

/-- `for (k = 0; k < n; ++k)`. -/
def forRange {σ : Type} : Nat → (Nat → σ → Out σ) → σ → Out σ
  | 0, _, s => .ok s
  | n + 1, f, s => do
    let s ← forRange n f s
    f n s

/-- Position of the minimum, medianfilter.cpp:28-31 and 99-102: `min = j; for (k = j+1; k < n; ++k)
if (window[k] < window[min]) min = k;`. The `d`-th step looks at `k = j+1+d`. -/
def minPos (w : Mem) (n j : Nat) : Out Nat :=
  forRange (n - (j + 1)) (fun d min => do
    let a ← w.read (j + 1 + d)
    let b ← w.read min
    .ok (if a < b then j + 1 + d else min)) j

/-- One pass of the selection sort, medianfilter.cpp:27-35 and 98-106. -/
def selectStep (n j : Nat) (w : Mem) : Out Mem := do
  let min ← minPos w n j
  let temp ← w.read j
  let x ← w.read min
  let w ← w.write j x
  w.write min temp

/-- The first `m` passes over a window of `n` entries, then the entry `p`. -/
def sortAndGet (n m p : Nat) (w : Mem) : Out Rat := do
  let w ← forRange m (selectStep n) w
  w.read p

/-- `window[k++] = image[a]` for the addresses `as`, medianfilter.cpp:22-23 and 90-94. -/
def fillWindow (image : Mem) : List Nat → Nat → Mem → Out Mem
  | [], _, w => .ok w
  | a :: as, k, w => do
    let x ← image.read a
    let w ← w.write k x
    fillWindow image as (k + 1) w

/-- 1-D implementation, medianfilter.cpp:15-40. The loop variable `i` is shifted by two; `ksize` is
not used by the code. -/
def impl1 (signal result : Mem) (NX : Nat) : Out Mem :=
  forRange (NX - 4) (fun i result => do
    let w ← fillWindow signal ((List.range 5).map fun j => i + j) 0 (Mem.alloc 5)
    let v ← sortAndGet 5 3 2 w
    result.write i v) result

/-- 1-D wrapper, medianfilter.cpp:46-74, with a non-null result. `_ksize` is ignored. -/
def median1 (signal result : Mem) (NX _ksize : Nat) : Out Mem :=
  if NX < 1 then .ok result
  else if NX = 1 then do
    let x ← signal.read 0
    result.write 0 x
  else do
    let ext ← forRange NX (fun k e => do
      let x ← signal.read k
      e.write (2 + k) x) (Mem.alloc (NX + 4))
    let ext ← forRange 2 (fun i e => do
      let x ← signal.read (1 - i)
      let e ← e.write i x
      let y ← signal.read (NX - 1 - i)
      e.write (NX + 2 + i) y) ext
    impl1 ext result (NX + 4)

/-- `kBoundary = (ksize - 1) / 2`, medianfilter.cpp:84, 121. -/
def kB (ksize : Nat) : Nat := (ksize - 1) / 2

/-- Addresses of the window around the output point `(x, y)` in an image of width `W`,
medianfilter.cpp:92-94 with `iY = y + kBoundary`, `iX = x + kBoundary`. -/
def windowAddrs (W ksize y x : Nat) : List Nat :=
  (List.range (2 * kB ksize + 1)).flatMap fun a =>
    (List.range (2 * kB ksize + 1)).map fun b => (y + a) * W + (x + b)

/-- 2-D implementation, medianfilter.cpp:81-111; `W`, `H` are the sizes of the extended image. -/
def impl2 (image result : Mem) (W H ksize : Nat) : Out Mem :=
  forRange (H - 2 * kB ksize) (fun y result =>
    forRange (W - 2 * kB ksize) (fun x result => do
      let w ← fillWindow image (windowAddrs W ksize y x) 0 (Mem.alloc (ksize * ksize))
      let v ← sortAndGet (ksize * ksize) ((ksize * ksize + 1) / 2) ((ksize * ksize - 1) / 2) w
      result.write (y * (W - 2 * kB ksize) + x) v) result) result

/-- `memcpy(dst + d, src + s, n)`. -/
def copyFrom (src : Mem) (s d n : Nat) (dst : Mem) : Out Mem :=
  forRange n (fun k e => do
    let x ← src.read (s + k)
    e.write (d + k) x) dst

/-- `memcpy` inside one block. -/
def copyWithin (s d n : Nat) (m : Mem) : Out Mem :=
  forRange n (fun k e => do
    let x ← e.read (s + k)
    e.write (d + k) x) m

/-- The extended image, medianfilter.cpp:126-161. -/
def extend (image : Mem) (NX NY ksize fillType : Nat) : Out Mem := do
  let b := kB ksize
  let W := NX + 2 * b
  let ext ← forRange NY (fun i e => do
    let e ← copyFrom image (NX * i) (W * (i + b) + b) NX e
    forRange b (fun j e =>
      if fillType = 1 then do
        let l ← image.read (NX * i)
        let e ← e.write (W * (i + b) + j) l
        let r ← image.read (NX * (i + 1) - 1)
        e.write (W * (i + b + 1) - j - 1) r
      else do
        let e ← e.write (W * (i + b) + j) 0
        e.write (W * (i + b + 1) - j - 1) 0) e) (Mem.alloc (W * (NY + 2 * b)))
  forRange b (fun j e =>
    if fillType = 1 then do
      let e ← copyWithin (W * b) (W * j) W e
      copyWithin (W * (NY + b - 1)) (W * (NY + b + j)) W e
    else
      forRange W (fun i e => do
        let e ← e.write (W * j + i) 0
        e.write (W * (NY + b + j) + i) 0) e) ext

/-- 2-D wrapper, medianfilter.cpp:119-166, with a non-null result. `W`, `H` below are the extended
sizes. -/
def median2 (image result : Mem) (NX NY ksize fillType : Nat) : Out Mem :=
  if NX < 1 ∨ NY < 1 then .ok result
  else do
    let ext ← extend image NX NY ksize fillType
    impl2 ext result (NX + 2 * kB ksize) (NY + 2 * kB ksize) ksize

end Verif.Median
