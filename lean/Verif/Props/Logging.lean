import Verif.Model.Logging

/-!
# C75: log filters
-/

namespace Verif.Logging

/-- The setting of a filter for a kind of message. -/
def Spec.setting (f : Filter) : Typ → Option Bool
  | .connection => f.connections
  | .request => f.requests
  | .error => f.errors

/-- C75: the backend's setting if present, else the global setting if present, else logged. -/
theorem backend_logs (global : Filter) (bes : List Filter) (be : Backend)
    (h : be ∈ configure global bes) (typ : Typ) :
    beLogs be typ = true ↔
      Spec.setting be.filter typ = some true ∨
      (Spec.setting be.filter typ = none ∧ Spec.setting global typ = some true) ∨
      (Spec.setting be.filter typ = none ∧ Spec.setting global typ = none) := by
  unfold configure at h
  rw [List.mem_map] at h
  obtain ⟨f, -, rfl⟩ := h
  obtain ⟨c, r, e⟩ := f
  obtain ⟨c', r', e'⟩ := global
  cases typ
  · rcases c with - | - | - <;> rcases c' with - | - | - <;> simp [beLogs, shouldLog, firstSet, Spec.setting, proxyLogsError, proxyLogsConn]
  · rcases r with - | - | - <;> rcases r' with - | - | - <;> simp [beLogs, shouldLog, firstSet, Spec.setting, proxyLogsError, proxyLogsConn]
  · rcases e with - | - | - <;> rcases e' with - | - | - <;> simp [beLogs, shouldLog, firstSet, Spec.setting, proxyLogsError, proxyLogsConn]

/-- C75: the proxy's own errors follow the global setting and are logged if there is none;
connections are not logged before the first configuration. -/
theorem proxy_logs (global : Filter) :
    (proxyLogsError (some global) = true ↔ global.errors ≠ some false) ∧
    (proxyLogsConn (some global) = true ↔ global.connections ≠ some false) ∧
    proxyLogsError none = true ∧ proxyLogsConn none = false := by
  obtain ⟨c, r, e⟩ := global
  refine ⟨?_, ?_, rfl, rfl⟩
  · rcases e with - | - | - <;> simp [beLogs, shouldLog, firstSet, Spec.setting, proxyLogsError, proxyLogsConn]
  · rcases c with - | - | - <;> simp [beLogs, shouldLog, firstSet, Spec.setting, proxyLogsError, proxyLogsConn]

/-- The general form: the first of any number of filters with a setting decides. -/
theorem first_set (typ : Typ) (l1 l2 : List Filter) (f : Filter) (b : Bool)
    (h1 : ∀ g ∈ l1, Spec.setting g typ = none) (h2 : Spec.setting f typ = some b) :
    shouldLog typ (l1 ++ f :: l2) = b := by
  have aux : ∀ (field : Filter → Option Bool) (l1 : List Filter), (∀ g ∈ l1, field g = none) →
      field f = some b → firstSet field (l1 ++ f :: l2) = b := by
    intro field l1
    induction l1 with
    | nil =>
      intro _ h
      rw [List.nil_append, firstSet, h]
    | cons a t ih =>
      intro h h'
      rw [List.cons_append, firstSet, h a List.mem_cons_self]
      exact ih (fun g hg => h g (List.mem_cons_of_mem _ hg)) h'
  cases typ
  · exact aux Filter.connections l1 h1 h2
  · exact aux Filter.requests l1 h1 h2
  · exact aux Filter.errors l1 h1 h2

example : beLogs ⟨⟨none, some false, none⟩, ⟨some false, some true, none⟩⟩ .request = false ∧
    beLogs ⟨⟨none, some false, none⟩, ⟨some false, some true, none⟩⟩ .connection = false ∧
    beLogs ⟨⟨none, some false, none⟩, ⟨some false, some true, none⟩⟩ .error = true := by decide

end Verif.Logging
