/-
Model of the tile queue built by `Renderer` (src/renderer.cpp) and consumed by `executor`.

`int` arithmetic is modelled with naturals; `y+SPLIT_SIZE` cannot overflow for the resolutions the
configuration accepts (far below 2^31, see `ConfigDriver::check_resolution`).
-/

namespace Spectre.Tiles

/-- `SPLIT_SIZE`, settings.h. -/
def splitSize : Nat := 32

/-- `struct Renderer_task`, renderer.hpp. -/
structure Task where
  startx : Nat
  endx : Nat
  starty : Nat
  endy : Nat
deriving DecidableEq, Repr

/-- Inner loop `for(int x = 0; x<width; x += SPLIT_SIZE)`, renderer.cpp:106-111, from `x`.
Tasks are listed in push order. -/
def rowTasks (width starty endy : Nat) (x : Nat) : List Task :=
  if _h : x < width then
    { startx := x, endx := x + splitSize, starty := starty, endy := endy } ::
      rowTasks width starty endy (x + splitSize)
  else []
termination_by width - x
decreasing_by simp [splitSize]; omega

/-- Outer loop `for(int y = 0; y<height; y += SPLIT_SIZE)`, renderer.cpp:102-112, from `y`. -/
def allTasks (width height : Nat) (y : Nat) : List Task :=
  if _h : y < height then
    rowTasks width y (if y + splitSize < height then y + splitSize else height) 0 ++
      allTasks width height (y + splitSize)
  else []
termination_by height - y
decreasing_by simp [splitSize]; omega

/-- The jobs of a renderer: the constructor (renderer.cpp:18-29) replaces the size by 0 × 0 when
the width is not a multiple of `SPLIT_SIZE`; `render` (renderer.cpp:100-112) queues the tiles. -/
def jobs (width height : Nat) : List Task :=
  if width % splitSize ≠ 0 then allTasks 0 0 0 else allTasks width height 0

end Spectre.Tiles
