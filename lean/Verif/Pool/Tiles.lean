import Verif.Basic

/-!
# Tiles of a multi-threaded render (model)

Models `RenderPool::initialize_pool`, `src/misc/render_pool.cpp:125-142`, and the `RenderTile`
constructor, `include/feign/misc/render_pool.h:24-35`.

Simplification: C++ `int` is modelled by unbounded integers (no overflow of `j + tile_width`).
-/

namespace Feign.Pool

/-- `struct RenderTile`, `include/feign/misc/render_pool.h:46-52`: all pixels `[min, max)`. -/
structure Tile where
  minX : Int
  minY : Int
  maxX : Int
  maxY : Int
  index : Nat
  deriving DecidableEq, Repr

/-- The values taken by the loop variable of `for (int i = start; i < lim; i += step)`,
`src/misc/render_pool.cpp:132` and `:134`. `none` means that the loop has not finished within `fuel`
iterations. -/
def loopValues (lim step : Int) : (fuel : Nat) → (start : Int) → Option (List Int)
  | 0, _ => none
  | fuel + 1, i =>
    if i < lim then (loopValues lim step fuel (i + step)).map (i :: ·) else some []

/-- One iteration of the outer loop, `src/misc/render_pool.cpp:134-140`: the tiles of the row starting
at `y`, numbered from `idx`. -/
def rowTiles (tw w h y : Int) : List Int → Nat → List Tile
  | [], _ => []
  | x :: xs, idx =>
    { minX := x, minY := y, maxX := min (x + tw) w, maxY := min (y + tw) h, index := idx }
      :: rowTiles tw w h y xs (idx + 1)

/-- The outer loop, `src/misc/render_pool.cpp:132-141`. -/
def allTiles (tw w h : Int) (xs : List Int) : List Int → Nat → List Tile
  | [], _ => []
  | y :: ys, idx => rowTiles tw w h y xs idx ++ allTiles tw w h xs ys (idx + xs.length)

/-- `RenderPool::initialize_pool(im_w, im_h)`, `src/misc/render_pool.cpp:125-142`. `old` is the content
of `tiles` before the call (the vector is never cleared). `none`: a loop did not finish within `fuel`
iterations. The inner loop is only entered when the outer one has an iteration. -/
def initializePool (old : List Tile) (tw w h : Int) (fuel : Nat) : Option (List Tile) := do
  let ys ← loopValues h tw fuel 0
  if ys = [] then
    some old
  else
    let xs ← loopValues w tw fuel 0
    some (old ++ allTiles tw w h xs ys 0)

end Feign.Pool
