/-
Model of africanus/util/dask_util.py: `format_time`, `key_bin`, `TaskData`, `update_bar`, `timer_func` and `EstimatingProgressBar`.
Times are rational numbers.
-/
import Verif.Basic
import Mathlib.Data.Rat.Floor
import Mathlib.Algebra.Order.Floor.Div
import Mathlib.Algebra.BigOperators.Group.Finset.Basic

set_option autoImplicit false

namespace Verif.Util.Progress

/-! ### `format_time` -/

/-- `divmod(t, n)` for a number and a positive integer (util/dask_util.py:24-27). -/
def divmod (t : ℚ) (n : ℤ) : ℤ × ℚ := (⌊t / n⌋, t - n * ⌊t / n⌋)

/-- Rounding of the format `.0f`: to the nearest integer, halves to the even one (util/dask_util.py:30-38). -/
def roundEven (x : ℚ) : ℤ :=
  if x - ⌊x⌋ < 1 / 2 then ⌊x⌋ else if 1 / 2 < x - ⌊x⌋ then ⌊x⌋ + 1 else if ⌊x⌋ % 2 = 0 then ⌊x⌋ else ⌊x⌋ + 1

/-- What is shown: two numbers with their units, or seconds (util/dask_util.py:20-38). -/
inductive Shown where
  | two (a : ℤ) (ua : Char) (b : ℤ) (ub : Char)
  | secs (s : ℤ)
deriving DecidableEq

/-- The numbers of `format_time` (dask_util.py:22-38); all but the seconds are whole and are formatted as they are. -/
def shown (t : ℚ) : Shown :=
  let (m, s) := divmod t 60
  let h := m / 60
  let m := m % 60
  let d := h / 24
  let h := h % 24
  let w := d / 7
  let d := d % 7
  if w ≠ 0 then .two w 'w' d 'd'
  else if d ≠ 0 then .two d 'd' h 'h'
  else if h ≠ 0 then .two h 'h' m 'm'
  else if m ≠ 0 then .two m 'm' (roundEven s) 's'
  else .secs (roundEven s)

/-- The format `{:n.0f}` of a whole number: padded on the left to `n` characters (util/dask_util.py:30-38). -/
def pad (n : Nat) (x : ℤ) : List Char :=
  let digits := (toString x).toList
  List.replicate (n - digits.length) ' ' ++ digits

/-- The text of `format_time` (dask_util.py:29-38), as a list of characters. -/
def Shown.text : Shown → List Char
  | .two a ua b ub => pad 2 a ++ [ua] ++ pad 2 b ++ [ub]
  | .secs s => pad 5 s ++ ['s']

/-- `format_time` (dask_util.py:22-38). -/
def formatTime (t : ℚ) : List Char := (shown t).text

/-! ### Callbacks -/

/-- `TaskData` (dask_util.py:54-60). -/
structure TaskData where
  completed : Nat := 0
  total : Nat := 0
  timeSum : ℚ := 0

/-- `task_start` and `task_data`; a bin that is not in the dictionary has the value of `TaskData()` (util/dask_util.py:81-221). -/
structure Bar (K B : Type) where
  start : K → Option ℚ
  data : B → TaskData

/-- A call of a callback, with the value of `default_timer()` (util/dask_util.py:81-221). -/
inductive Event (K : Type) where
  | pre (k : K) (now : ℚ)
  | post (k : K) (now : ℚ)

variable {K B : Type} [DecidableEq K] [DecidableEq B]

/-- `_start` (dask_util.py:195-200): one more task in the bin of every key. -/
def begin (bin : K → B) (keys : List K) : Bar K B where
  start := fun _ => none
  data := keys.foldl (fun d k => Function.update d (bin k) { d (bin k) with total := (d (bin k)).total + 1 }) fun _ => {}

/-- `_pretask` and `_posttask` (dask_util.py:217-221); both hold the lock, so they do not overlap. A task that was not started is a
`KeyError`. -/
def step (bin : K → B) (s : Bar K B) : Event K → Except PyErr (Bar K B)
  | .pre k now => .ok { s with start := Function.update s.start k (some now) }
  | .post k now =>
    match s.start k with
    | none => .error .keyError
    | some t =>
      let td := s.data (bin k)
      .ok {
        start := Function.update s.start k none
        data := Function.update s.data (bin k) { td with timeSum := td.timeSum + (now - t), completed := td.completed + 1 } }

/-- A history of callbacks (util/dask_util.py:81-221). -/
def run (bin : K → B) (s : Bar K B) : List (Event K) → Except PyErr (Bar K B)
  | [] => .ok s
  | e :: es => (step bin s e).bind fun s' => run bin s' es

/-! ### `update_bar` -/

/-- The sums of `update_bar` (dask_util.py:82-96) over the values of the dictionary: total, completed, estimated, time guess. -/
def sums (ds : List TaskData) : Nat × Nat × ℚ × ℚ :=
  ds.foldl (fun (total, completed, estimated, guess) v =>
    let total := total + v.total
    let completed := completed + v.completed
    if v.completed > 0 then (total, completed, estimated + v.timeSum / v.completed * v.total, guess + v.timeSum)
    else (total, completed, estimated, guess)) (0, 0, 0, 0)

/-- The estimate (dask_util.py:101-104). -/
def estimate (elapsed : ℚ) (prevCompleted : Nat) (prevEstimated : ℚ) (ds : List TaskData) : Except PyErr (Nat × ℚ) :=
  let (_, completed, estimated, guess) := sums ds
  if completed ≠ prevCompleted then
    if guess = 0 then .error .zeroDivisionError else .ok (completed, estimated * elapsed / guess)
  else .ok (completed, prevEstimated)

/-- The format `{0:{1}.{1}}` of the bar (dask_util.py:117): cut and padded on the right to the width. -/
def fit (width : Nat) (text : List Char) : List Char :=
  let t := text.take width
  t ++ List.replicate (width - t.length) ' '

/-- Whole part of a number, towards zero (`int`) (util/dask_util.py:81-221). -/
def toInt (x : ℚ) : ℤ := if 0 ≤ x then ⌊x⌋ else ⌈x⌉

/-- What one update shows: bar, percentage, elapsed time and estimate (dask_util.py:108-120). -/
structure Display where
  bar : List Char
  percent : ℤ
  elapsed : List Char
  estimate : List Char
deriving DecidableEq

/-- `update_bar` (dask_util.py:81-126) for a bar of `width` characters: what it writes, and the values it returns. -/
def updateBar (width : Nat) (elapsed : ℚ) (prevCompleted : Nat) (prevEstimated : ℚ) (ds : List TaskData) :
    Except PyErr (Display × Nat × ℚ) := do
  let (completed, estimated) ← estimate elapsed prevCompleted prevEstimated ds
  let fraction : ℚ := if elapsed < 10 then 0 else if estimated > 0 then elapsed / estimated else 0
  let bar := if elapsed < 10 then " estimate improves over time".toList else List.replicate (toInt (width * fraction)).toNat '#'
  return ({
    bar := fit width bar
    percent := toInt (100 * fraction)
    elapsed := formatTime elapsed
    estimate := if estimated = 0 then "???".toList else formatTime estimated }, completed, estimated)

/-- The updates of `timer_func` (dask_util.py:129-143) at the given elapsed times, with the dictionary found at each: the previous
values are set to zero in every iteration. -/
def timer (width : Nat) (minimum : ℚ) : List (ℚ × List TaskData) → Except PyErr (List Display)
  | [] => .ok []
  | (elapsed, ds) :: rest =>
    if elapsed > minimum then do
      let (shown, _, _) ← updateBar width elapsed 0 0 ds
      let later ← timer width minimum rest
      return shown :: later
    else timer width minimum rest

/-! ### The dictionary and the two threads -/

/-- The threads: the size of the dictionary, and the loop of `update_bar` (dask_util.py:88-96), if it runs: the size it saw first and
the number of values left. `failed` after the `RuntimeError` of a dictionary that changed its size. -/
structure Threads where
  size : Nat
  loop : Option (Nat × Nat)
  failed : Bool

/-- A step of one of the threads (util/dask_util.py:81-221). -/
inductive Step : Threads → Threads → Prop
  /-- the display thread takes the lock -/
  | acquire (n : Nat) : Step ⟨n, none, false⟩ ⟨n, some (n, n), false⟩
  /-- the display thread goes to the next value -/
  | next (n left : Nat) : Step ⟨n, some (n, left + 1), false⟩ ⟨n, some (n, left), false⟩
  /-- the dictionary changed its size since the loop started -/
  | fail (n seen left : Nat) (h : n ≠ seen) : Step ⟨n, some (seen, left), false⟩ ⟨n, none, true⟩
  /-- the display thread has seen all values and gives the lock back -/
  | release (n : Nat) : Step ⟨n, some (n, 0), false⟩ ⟨n, none, false⟩
  /-- a callback of a task holds the lock; it may add a bin -/
  | task (n : Nat) (new : Bool) (f : Bool) : Step ⟨n, none, f⟩ ⟨n + new.toNat, none, f⟩

/-- `_finish` (dask_util.py:208-211) empties the dictionary without the lock. -/
inductive StepF : Threads → Threads → Prop
  | step {s t : Threads} (h : Step s t) : StepF s t
  | finish (s : Threads) : StepF s { s with size := 0 }

end Verif.Util.Progress
