import Verif.Results.Names
import Verif.Results.AttrsProps
import Verif.Results.CrashStore

/-!
# Stored results: theorems of several files applied to the history of `Names`

Concrete cases for C33, C71 and C92.
-/

namespace Verif.Results

example := lonlat_search_history [.plain "roll"] exHistory exHistory_aligned

/-- after the three calls of `exHistory` a fourth one is interrupted after two writes, a fifth one stored -/
example := storing_goes_on_partial [.plain "roll"] exHistory exHistory_aligned ⟨20, 60, [], none⟩ ⟨by simp, by simp, by simp, by simp⟩ (by intro d hd; simp at hd)
  [⟨21, 61, [(.plain "roll", [1, 2])], some [7, 8]⟩]
  (by intro q hq; rw [List.mem_singleton.mp hq]; exact ⟨by simp, by decide +kernel, by decide +kernel, by simp⟩)
  (by
    intro q hq d hd
    rw [List.mem_singleton.mp hq] at hd
    rw [List.mem_singleton.mp hd]
    decide +kernel) 2

end Verif.Results
