import Verif.Model.BenchStats
import Mathlib.Data.Int.Log

/-!
# Numbers in the output (src/Logger.cpp lines 54-70 and 142-147, OpenANN/io/Logger.h lines 60-78 and 153-172)

A stream of the standard library keeps two settings that matter for floating point numbers: the flag `std::ios_base::fixed` and the
precision.  A number that is written is modelled by the value of its text.  The library rounds to the nearest decimal number with the
number of digits; which one it takes in the middle between two is left open (`Rounding`).  Widths, fill characters, scientific
notation, `inf` and `nan` are left out.
-/

namespace Verif.Formatter

noncomputable section

/-- The settings of a stream with their initial values: not fixed, precision 6. -/
structure Format where
  fixed : Bool := false
  precision : ℤ := 6

/-- How the standard library rounds: to a nearest integer. -/
structure Rounding where
  near : ℝ → ℤ
  close : ∀ x, |x - near x| ≤ 1 / 2

/-- Number of digits that the settings ask for; a negative precision means 6. -/
def Format.digits (f : Format) : ℕ := if f.precision < 0 then 6 else f.precision.toNat

/-- Position of the last digit after the decimal point.  `%.*f`: as many as asked for; `%.*g`: so many that there are
`digits` (at least one) significant digits. -/
def Format.places (f : Format) (x : ℝ) : ℤ :=
  if f.fixed then (f.digits : ℤ) else ((max 1 f.digits : ℕ) : ℤ) - 1 - Int.log 10 |x|

/-- The value of the text of the number `x`. -/
def Format.shown (R : Rounding) (f : Format) (x : ℝ) : ℝ := (R.near (x * 10 ^ f.places x) : ℝ) / 10 ^ f.places x

/-- What is written with one `<<`: text, an integer, a `double`, or a `FloatingPointFormatter` (OpenANN/io/Logger.h lines 60-78). -/
inductive Piece where
  | text (s : String)
  | whole (n : ℤ)
  | number (x : ℝ)
  | formatted (x : ℝ) (precision : ℤ)

/-- What can be read in the output. -/
inductive Shown where
  | text (s : String)
  | whole (n : ℤ)
  | number (v : ℝ)

/-- `<<` of a stream.  For the formatter: src/Logger.cpp lines 142-147, `fixed` is reset afterwards, the precision is not. -/
def put (R : Rounding) (f : Format) : Piece → Shown × Format
  | .text s => (.text s, f)
  | .whole n => (.whole n, f)
  | .number x => (.number (f.shown R x), f)
  | .formatted x p =>
    (.number (Format.shown R { fixed := true, precision := p } x), { fixed := false, precision := p })

/-- `<<` of a logger that writes to the console: OpenANN/io/Logger.h line 162, src/Logger.cpp lines 58-61 -/
def putConsole (R : Rounding) (f : Format) : Piece → Shown × Format
  | .formatted x p =>
    (.number (Format.shown R { fixed := true, precision := p } x), { fixed := false, precision := p })
  | piece => put R f piece

/-- `<<` of a logger that writes to a file: OpenANN/io/Logger.h line 166, src/Logger.cpp lines 62-65; nothing is reset -/
def putFile (R : Rounding) (f : Format) : Piece → Shown × Format
  | .formatted x p =>
    (.number (Format.shown R { fixed := true, precision := p } x), { fixed := true, precision := p })
  | piece => put R f piece

/-- Where output goes: `std::cout`, the file of the logger `i`, or another stream of the program. -/
inductive Sink where
  | cout
  | file (i : ℕ)
  | other (i : ℕ)
  deriving DecidableEq

/-- The settings of all streams and what they have received. -/
structure System where
  formats : Sink → Format := fun _ => {}
  out : List (Sink × Shown) := []

/-- A piece that arrives at the stream `s`. -/
def System.receive (y : System) (s : Sink) (r : Shown × Format) : System where
  formats := Function.update y.formats s r.2
  out := y.out ++ [(s, r.1)]

/-- What a program can do: write to a console logger, to the logger `i` with a file, to a logger without target, to a stream; send a
message with several pieces to the global log, whose stream is `s`; change the settings of a stream. -/
inductive Action where
  | console (piece : Piece)
  | file (i : ℕ) (piece : Piece)
  | nothing (piece : Piece)
  | stream (s : Sink) (piece : Piece)
  | message (s : Sink) (pieces : List Piece)
  | settings (s : Sink) (f : Format)

/-- src/Logger.cpp lines 79-104: the pieces of a message are written to the stream of the temporary object, one after another. -/
def compose (R : Rounding) : Format → List Piece → List Shown
  | _, [] => []
  | f, p :: ps => (put R f p).1 :: compose R (put R f p).2 ps

/-- One action; src/Logger.cpp lines 54-70, 79-104, 142-147, OpenANN/io/Logger.h lines 153-172.  A message arrives as text. -/
def System.step (R : Rounding) (y : System) : Action → System
  | .console piece => y.receive .cout (putConsole R (y.formats .cout) piece)
  | .file i piece => y.receive (.file i) (putFile R (y.formats (.file i)) piece)
  | .nothing _ => y
  | .stream s piece => y.receive s (put R (y.formats s) piece)
  | .message s pieces => { y with out := y.out ++ (compose R {} pieces).map fun v => (s, v) }
  | .settings s f => { y with formats := Function.update y.formats s f }

/-- A history of actions. -/
def System.run (R : Rounding) (y : System) (as : List Action) : System := as.foldl (System.step R) y

/-! ## What the library and the benchmarks write -/

/-- src/Net.cpp lines 231-234: the text of the architecture, then the parameters.  They are separated by line breaks, which are left
out here. -/
def save (architecture : String) (parameters : List ℝ) : List Piece :=
  .text architecture :: .text "parameters " :: parameters.map .number

/-- src/MBSGD.cpp lines 64-76: the message after an iteration -/
def sgdMessage (iteration : ℤ) (error alphaDecay alpha etaGain eta : ℝ) [Decidable (alphaDecay < 1)] [Decidable (0 < etaGain)] :
    List Piece :=
  [.text "Iteration ", .whole iteration, .text ", error = ", .formatted error 4] ++
  (if alphaDecay < 1 then [.text ", alpha = ", .formatted alpha 3] else []) ++
  (if 0 < etaGain then [.text ", eta = ", .formatted eta 3] else [])

/-- benchmarks/polebalancing/polebalancing.cpp lines 216-225 -/
def poleOutput (r : BenchStats.PoleResults) : List Piece :=
  [.whole r.failures, .text "/", .whole r.runs, .text " failed\nepisodes:\t", .formatted r.mean 3, .text "+-",
    .formatted r.stdDev 4, .text "\nrange:\t\t[", .whole r.min, .text ",", .whole r.max, .text "]\nmedian:\t\t", .whole r.median,
    .text "\ntime:\t\t", .number r.time, .text " ms\n\n"]

/-- benchmarks/twospirals/twospirals.cpp lines 226-234; line 234 converts the iterations to `int` -/
def spiralOutput (r : BenchStats.Report) : List Piece :=
  [.text "Mean+-StdDev\t", .formatted r.correct.mean 3, .text "+-", .formatted r.correct.stdDev 3, .text "\t",
    .formatted r.accuracy.mean 3, .text "+-", .formatted r.accuracy.stdDev 3, .text "\t", .whole r.time, .text "\t\t",
    .number r.iterations.mean, .text "+-", .formatted r.iterations.stdDev 3, .text "\n", .text "[min,max]\t", .text "[",
    .number r.correct.min, .text ",", .number r.correct.max, .text "]\t", .text "[", .formatted r.accuracy.min 3, .text ",",
    .formatted r.accuracy.max 3, .text "]\t\t\t", .text "[", .whole ⌊r.iterations.min⌋, .text ",", .whole ⌊r.iterations.max⌋,
    .text "]\n\n"]

/-- benchmarks/p300speller/p300.cpp lines 134-143; `r` holds the quotients -/
def spellerOutput (r : BenchStats.Sums) : List Piece :=
  [.formatted r.iterations 2, .text "\t", .formatted r.duration 2, .text "\t", .formatted r.correct5 2, .text "\t\t",
    .formatted r.correct15 2, .text "\n"]

end

end Verif.Formatter
