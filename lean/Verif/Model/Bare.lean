import Verif.Model.Tracer

/-!
# `trace()` over surfaces that have no optical material

Every surface is made with a rendering material (`world_objects.py` lines 343-351, default `BLACK` of `gooch.py`); these classes have
a `shade` but no `trace`. `Tracer.stInteract` (`Model/Tracer.lean`) is the round for surfaces that can be traced; here is the
exception.
-/

namespace PyRayT

/-- how a call of `trace()` ends: with a result or with an `AttributeError`; in both cases the tracer as it is then left -/
inductive Outcome where
  | returned (t : Tracer)
  | raised (t : Tracer)

/-- `_pyrayt.py` lines 401-410: `surface.material.trace` is evaluated for every surface that is the nearest one of at least one column
of the ray set (also of columns that were absorbed: these are sorted out later, lines 415-420). `bare` are the ids of the surfaces
with a rendering material. Up to there only local variables have changed. -/
def Tracer.Stuck (bare : ℤ → Prop) (t : Tracer) : Prop :=
  t.phase = .interact ∧ ∃ e ∈ t.lut, bare e.1 ∧ ∃ hit ∈ t.hits, hit.2 = e.1

/-- lines 333-336: the loop, as `Tracer.Runs`, with the `AttributeError`; `n` iterations are completed -/
inductive Tracer.Ends (bare : ℤ → Prop) : ℕ → Tracer → Outcome → Prop where
  | stop {t : Tracer} : t.phase = .idle → Ends bare 0 t (.returned t)
  | fail {t : Tracer} : t.Stuck bare → Ends bare 0 t (.raised t)
  | step {n : ℕ} {t t' : Tracer} {o : Outcome} : t.phase ≠ .idle → ¬ t.Stuck bare → t.step = some t' → Ends bare n t' o → Ends bare (n + 1) t o

/-- lines 329-339 `trace()` -/
def Tracer.TraceEnds (bare : ℤ → Prop) (n : ℕ) (t : Tracer) (o : Outcome) : Prop :=
  Tracer.Ends bare n { t with phase := .initialize } o

end PyRayT
