import Verif.Props.Conversions
import Verif.Props.ListTransform
import Verif.Props.UniformTransform

/-! # Theorems added because an edited model still satisfied the others (see seeded/LOG.jsonl) -/

namespace Timeseria

/-- **C103** fails for the series with no items: it cannot be converted to a data frame at all, whatever its
time zone and resolution, because it has no labels and `None` cannot be added to the columns. -/
theorem C103_empty_series_false (dc : DtCodec) (s : TSeries) (h : s.items = []) :
    toFrame dc s = .error .typeError := by
  unfold toFrame
  rw [h]

/-- the hypotheses are met: a series with no items and a time zone -/
example : toFrame sampleDt TSeries.empty = .error .typeError := C103_empty_series_false _ _ rfl

end Timeseria
