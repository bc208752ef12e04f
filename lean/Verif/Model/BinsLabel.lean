import Verif.Model.AutoBins
import Mathlib.Order.WithBot

/-!
# Extraction of events by label

`Bins.__getitem__` (`src/scipp/core/bins.py` 209-262): `da.bins['x', a:b]`, `da.bins['x', a:]`, `da.bins['x', :b]`, `da.bins['x', v]`. A value is `none` if it is NaN.
-/

namespace Scipp.BinsLabel

variable {β E : Type} [LinearOrder β]

/-- The properties of a type of numbers that are used: initial values of reductions (`lib/variable/creation.cpp` 62-66), `_upper_bound` for a value that is not NaN
(`src/scipp/core/binning.py` 311-322). -/
structure Num (β : Type) where
  fillMax : β
  fillLowest : β
  upper : β → β

/-- `min_equals` (`core/element/comparison.h` 141-151). -/
def minEquals (a b : Option β) : Option β :=
  match b, a with
  | none, _ => none
  | some _, none => none
  | some y, some x => some (min x y)

/-- `max_equals` (`core/element/comparison.h` 117-127). -/
def maxEquals (a b : Option β) : Option β :=
  match b, a with
  | none, _ => none
  | some _, none => none
  | some y, some x => some (max x y)

/-- An argument: missing (`None`), a scalar variable, or anything else (`bins.py` 240-252). -/
inductive Arg (β : Type) where
  | missing
  | label (v : Option β)
  | other

/-- The coordinates of all events (`bins.py` 242-245). -/
def coords (bins : List (List (Option β × E))) : List (Option β) := bins.flatten.map (·.1)

/-- `start` (`bins.py` 240-243), `none` if not a variable. -/
def startOf (T : Num β) (bins : List (List (Option β × E))) : Arg β → Option (Option β)
  | .missing => some ((coords bins).foldl minEquals (some T.fillMax))
  | .label v => some v
  | .other => none

/-- `stop` (`bins.py` 241, 244-245, `binning.py` 311-322): NaN remains NaN. -/
def stopOf (T : Num β) (bins : List (List (Option β × E))) : Arg β → Option (Option β)
  | .missing => some (((coords bins).foldl maxEquals (some T.fillLowest)).map T.upper)
  | .label v => some v
  | .other => none

/-- Comparisons are false for NaN (`bins.py` 254, edges being sorted in `lib/dataset/bin.cpp` 597-605). -/
def lt : Option β → Option β → Bool
  | some a, some b => decide (a < b)
  | _, _ => false

/-- See `lt`. -/
def le : Option β → Option β → Bool
  | some a, some b => decide (a ≤ b)
  | _, _ => false

/-- `start` and `stop` if the range is empty (`bins.py` 254-258). -/
def adjust (start stop : Option β) (s e : Arg β) : Option β × Option β :=
  if lt stop start then
    match s, e with
    | .missing, _ => (stop, stop)
    | _, .missing => (start, start)
    | _, _ => (start, stop)
  else (start, stop)

/-- Binning with two edges and removal of the new dim (`bins.py` 260). Each bin has the events between the edges (see C78 and C100). Simplification: the bins have no dim with the name of the
coordinate; otherwise all bins along that dim are combined. -/
def binAndSqueeze (bins : List (List (Option β × E))) (start stop : Option β) : Except Err (List (List (Option β × E))) :=
  if le start stop then .ok (bins.map (·.filter fun x => le start x.1 && lt x.1 stop)) else .error .binEdge

/-- `__getitem__` with a slice (`bins.py` 231-260). -/
def slice (T : Num β) (bins : List (List (Option β × E))) (s e : Arg β) (step : Bool) : Except Err (List (List (Option β × E))) :=
  if step then .error .invalidArgument
  else
    match startOf T bins s, stopOf T bins e with
    | some start, some stop => binAndSqueeze bins (adjust start stop s e).1 (adjust start stop s e).2
    | _, _ => .error .invalidArgument

/-- `__getitem__` with a label (`bins.py` 224-230): the group with that value (see C24). -/
def pick (bins : List (List (Option β × E))) (v : Option β) : List (List (Option β × E)) :=
  bins.map (·.filter fun x => le x.1 v && le v x.1)

/-- Integers (`binning.py` 315-316): adding one to a NumPy integer wraps around. -/
def intNum (bits : Nat) : Num Int where
  fillMax := 2 ^ (bits - 1) - 1
  fillLowest := -2 ^ (bits - 1)
  upper x := AutoBins.wrap bits (x + 1)

/-- Numbers of type `double` apart from NaN: minus infinity, rational numbers, infinity (`binning.py` 317-321). -/
abbrev Float := WithBot (WithTop ℚ)

/-- A finite number (`binning.py` 317-321). -/
def fin (q : ℚ) : Float := ((q : WithTop ℚ) : WithBot (WithTop ℚ))

/-- Numbers of type `double` (`binning.py` 317-321): infinity plus one is infinity, which is then the next number. -/
def floatNum : Num Float where
  fillMax := fin ((2 ^ 53 - 1) * 2 ^ 971)
  fillLowest := fin (-((2 ^ 53 - 1) * 2 ^ 971))
  upper
    | none => ⊥
    | some none => some ⊤
    | some (some q) => fin (AutoBins.upperFloat q)

end Scipp.BinsLabel
