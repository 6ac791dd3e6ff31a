/-
Operation counts reported by the benchmarks.

Models /repo/include/bench/Complexity.hpp. `std::size_t` is 64 bits wide; its arithmetic wraps around.
-/
namespace Blast

/-- `std::map<std::string, std::size_t>`: bench/Complexity.hpp:17. The order of the entries is not observable through `find` and is not kept sorted here. -/
abbrev Complexity := List (String × UInt64)

/-- `complexityPotrf(m, n)`: bench/Complexity.hpp:21-36; `none` stands for the exception `std::invalid_argument`. -/
def complexityPotrf (m n : UInt64) : Option Complexity :=
  if m < n then none
  else some [("add", (1 + 3 * m - 2 * n) * (n - 1) * n / 6),
             ("mul", (1 + 3 * m - 2 * n) * (n - 1) * n / 6),
             ("div", n * (1 + 2 * m - n) / 2),
             ("sqrt", n)]

/-- `complexityGetrf(m, n)` after the exchange of arguments: bench/Complexity.hpp:45-52 -/
def complexityGetrf' (m n : UInt64) : Complexity :=
  [("add", (2 - m + 3 * n) * (m - 1) * m / 6),
   ("mul", (2 - m + 3 * n) * (m - 1) * m / 6),
   ("div", m * (m - 1) / 2)]

/-- `complexityGetrf(m, n)`: bench/Complexity.hpp:40-53 -/
def complexityGetrf (m n : UInt64) : Complexity :=
  if m < n then complexityGetrf' n m else complexityGetrf' m n

/-- `complexityTrsm(m, n)`: bench/Complexity.hpp:57-67 -/
def complexityTrsm (m n : UInt64) : Complexity :=
  [("add", m * (n - 1) * n / 2),
   ("mul", m * (n - 1) * n / 2),
   ("div", n * (1 + 2 * m - n) / 2)]

/-- the counters of a benchmark: a map from names to values. `Counter` stores a `double`; the conversion is not modelled. -/
abbrev Counters := String → Option UInt64

/-- `counters[key] = v` -/
def Counters.put (c : Counters) (key : String) (v : UInt64) : Counters := fun k => if k = key then some v else c k

/-- the loop over "add", "mul" in `setCounters`: bench/Complexity.hpp:76-82 -/
def flopsOf (c : Complexity) : UInt64 :=
  ["add", "mul"].foldl (fun flops op => match c.lookup op with | some v => flops + v | none => flops) 0

/-- `setCounters(counters, c)`: bench/Complexity.hpp:71-85 -/
def setCounters (counters : Counters) (c : Complexity) : Counters :=
  (c.foldl (fun cs v => cs.put ("f." ++ v.1) v.2) counters).put "flops" (flopsOf c)

end Blast
