import Verif.Results.Model

/-! Specification for C33: what a caller of `add_result` and the reading functions may rely on. -/

namespace Verif.Results

variable {V : Type}

/-- names used by the file itself -/
def reserved : List String := ["lon", "lat", "time", "idx", "_row_size"]

/-- one call is well formed: distinct names, metrics of length one, time series as long as the times -/
structure GoodRec (tsVars : List Name) (r : Rec V) : Prop where
  distinct : (r.data.map (fun d => varName d.1)).Nodup
  free : ∀ d ∈ r.data, varName d.1 ∉ reserved
  metric : ∀ d ∈ r.data, d.1 ∉ tsVars → d.2.length = 1
  series : ∀ d ∈ r.data, d.1 ∈ tsVars → ∃ t, r.times = some t ∧ d.2.length = t.length

/-- the variable occurs in a call -/
def Uses (r : Rec V) (x : String) : Prop := ∃ d ∈ r.data, varName d.1 = x

/-- The calls of a history: all well formed; a variable is a metric or a time series in all of them; a metric is used in the first call
or never; a time series is used before or there is no time step stored yet. -/
structure Aligned (tsVars : List Name) (hist : List (Rec V)) : Prop where
  good : ∀ r ∈ hist, GoodRec tsVars r
  kind : ∀ r ∈ hist, ∀ r' ∈ hist, ∀ d ∈ r.data, ∀ d' ∈ r'.data, varName d.1 = varName d'.1 → (d.1 ∈ tsVars ↔ d'.1 ∈ tsVars)
  metrics : ∀ pre r post, hist = pre ++ r :: post → ∀ d ∈ r.data, d.1 ∉ tsVars → pre = [] ∨ ∃ r' ∈ pre, Uses r' (varName d.1)
  series : ∀ pre r post, hist = pre ++ r :: post → ∀ d ∈ r.data, d.1 ∈ tsVars →
    (∀ r' ∈ pre, ∀ d' ∈ r'.data, d'.1 ∈ tsVars → d'.2 = []) ∨ ∃ r' ∈ pre, Uses r' (varName d.1)

end Verif.Results
