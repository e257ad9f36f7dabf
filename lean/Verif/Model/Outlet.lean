import Verif.Model.SystemMatrix

/-! Model of the statistics of the coolant at the outlet: `sources/channel.c`:344-461. -/

namespace Verif.Outlet
open Verif.Dim Verif.TG

variable {K : Type} [Field K] [LinearOrder K]

/-- IS_CHANNEL_COLUMN (channel_model, column): include/macros.h:101-103. -/
def isChan (m : ChModel) (c : Nat) : Bool := if m = .mc4rm then isChannelCol c else true

/-- `*temperatures` after `temperatures += get_cell_offset_in_layer (last_row, first_column)` and `c` increments:
sources/channel.c:351-369. `temps` starts at the layer of the channel. -/
def outT (d : Dims K) (temps : List K) (c : Nat) : K := temps.getD (offInLayer d (lastRow d) 0 + c) 0

/-- The loop `for (column = first_column ; column <= last_column ; column++) if (IS_CHANNEL_COLUMN) x = f (x, *temperatures)`. -/
def overColumns (m : ChModel) (d : Dims K) (temps : List K) (f : K → K → K) (x : K) : K :=
  (List.range (lastColumn d + 1)).foldl (fun x c => if isChan m c then f x (outT d temps c) else x) x

/-- `get_max_temperature_channel_outlet`: sources/channel.c:344-369. -/
def maxOut (ch : Channel K) (d : Dims K) (temps : List K) : K := overColumns ch.model d temps max (outT d temps 0)
/-- `get_min_temperature_channel_outlet`: sources/channel.c:373-398. -/
def minOut (ch : Channel K) (d : Dims K) (temps : List K) : K := overColumns ch.model d temps min (outT d temps 0)
/-- `get_avg_temperature_channel_outlet`: sources/channel.c:402-427 (the sum starts from the first cell of the row). In C a number of
channels equal to 0 (pin fins) gives an infinity, in a field it gives 0. -/
def avgOut (ch : Channel K) (d : Dims K) (temps : List K) : K :=
  overColumns ch.model d temps (· + ·) (outT d temps 0) / (ch.nChannels : K)
/-- `get_gradient_temperature_channel_outlet`: sources/channel.c:431-461. Both extremes are computed, the maximum is returned. -/
def gradientOut (ch : Channel K) (d : Dims K) (temps : List K) : K :=
  let mx := overColumns ch.model d temps max (outT d temps 0)
  let _mn := overColumns ch.model d temps min (outT d temps 0)
  mx

/-- `channel->NChannels` of a 4RM channel: bison/stack_description_parser.y:1142. -/
def nChannels4 (nCols : Nat) : Nat := (nCols - 1) / 2

end Verif.Outlet
