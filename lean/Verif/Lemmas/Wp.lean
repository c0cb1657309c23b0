import Verif.Model.Solve

/-!
# Reasoning about the methods of the solver

`wp m Q E s`: running `m` from state `s` either returns a value and a state satisfying `Q`, or
raises an exception in a state satisfying `E`.
-/

namespace Verif.Model

def wp {α : Type} (m : SM α) (Q : α → St → Prop) (E : PyErr → St → Prop) (s : St) : Prop :=
  match m s with
  | (.ok a, s') => Q a s'
  | (.error e, s') => E e s'

variable {α β : Type} {Q : α → St → Prop} {E : PyErr → St → Prop} {s : St}

theorem wp_pure (a : α) : wp (Pure.pure a) Q E s = Q a s := rfl

theorem wp_bind (m : SM β) (f : β → SM α) :
    wp (m >>= f) Q E s = wp m (fun b s' => wp (f b) Q E s') E s := by
  show wp (SM.andThen m f) Q E s = _
  unfold wp SM.andThen
  split <;> rename_i h <;> revert h <;> rcases m s with ⟨_ | _, _⟩ <;> intro h <;> simp_all

theorem wp_get {Q : St → St → Prop} : wp SM.get Q E s = Q s s := rfl

theorem wp_modify {Q : Unit → St → Prop} (f : St → St) : wp (SM.modify f) Q E s = Q () (f s) := rfl

theorem wp_throw (e : PyErr) : wp (SM.throw e) Q E s = E e s := rfl

theorem wp_lift (m : PyM α) :
    wp (SM.lift m) Q E s = ((∀ a, m = .ok a → Q a s) ∧ ∀ e, m = .error e → E e s) := by
  unfold wp SM.lift
  cases m <;> simp

theorem wp_nextTick {Q : ℕ → St → Prop} :
    wp nextTick Q E s = Q s.tick { s with tick := s.tick + 1 } := rfl

theorem wp_availableTime {Q : ℚ → St → Prop} (env : Env) (cfg : Cfg) :
    wp (availableTime env cfg) Q E s
      = Q (remaining env.clock cfg.timeLimit (s.reads + 1))
        { s with reads := s.reads + 1
                 lastRem := remaining env.clock cfg.timeLimit (s.reads + 1) } := rfl

theorem wp_buildTime {Q : ℚ → St → Prop} (env : Env) :
    wp (buildTime env) Q E s
      = Q (env.clock (s.reads + 2) - env.clock (s.reads + 1)) { s with reads := s.reads + 2 } := rfl

theorem wp_markStep {Q : Unit → St → Prop} :
    wp markStep Q E s = Q () { s with steps := s.steps ++ [s.lastRem] } := rfl

theorem wp_writeLB {Q : Unit → St → Prop} (v : ℚ) (b : Bool) :
    wp (writeLB v b) Q E s = Q ()
      { s with vLB := (v : WithBot ℚ), vLBNumpy := b
               trace := s.trace ++ [(s.vUB, (v : WithBot ℚ))] } := rfl

theorem wp_writeUB {Q : Unit → St → Prop} (v : ℚ) :
    wp (writeUB v) Q E s = Q ()
      { s with vUB := (v : WithTop ℚ), vUBNumpy := false
               trace := s.trace ++ [((v : WithTop ℚ), s.vLB)] } := rfl

theorem wp_ite (c : Prop) [Decidable c] (m m' : SM α) :
    wp (if c then m else m') Q E s = ((c → wp m Q E s) ∧ (¬ c → wp m' Q E s)) := by
  by_cases h : c <;> simp [h]

theorem wp_mono {m : SM α} {Q' : α → St → Prop} {E' : PyErr → St → Prop} (h : wp m Q E s)
    (hQ : ∀ a s', Q a s' → Q' a s') (hE : ∀ e s', E e s' → E' e s') : wp m Q' E' s := by
  unfold wp at h ⊢
  rcases h' : m s with ⟨_ | _, _⟩ <;> rw [h'] at h
  · exact hE _ _ h
  · exact hQ _ _ h

theorem wp_and {m : SM α} {Q' : α → St → Prop} {E' : PyErr → St → Prop} (h : wp m Q E s)
    (h' : wp m Q' E' s) :
    wp m (fun a s' => Q a s' ∧ Q' a s') (fun e s' => E e s' ∧ E' e s') s := by
  unfold wp at h h' ⊢
  rcases h'' : m s with ⟨_ | _, _⟩ <;> rw [h''] at h h' <;> exact ⟨h, h'⟩

/-- From a triple to the value of the run. -/
theorem wp_ok {m : SM α} {a : α} {s' : St} (h : wp m Q E s) (hm : m s = (.ok a, s')) : Q a s' := by
  unfold wp at h; rw [hm] at h; exact h

theorem wp_error {m : SM α} {e : PyErr} {s' : St} (h : wp m Q E s) (hm : m s = (.error e, s')) :
    E e s' := by
  unfold wp at h; rw [hm] at h; exact h

/-- The set of rules. -/
macro "wp_simp" : tactic => `(tactic| simp only [wp_bind, wp_pure, wp_get, wp_modify, wp_throw,
  wp_nextTick, wp_availableTime, wp_buildTime, wp_markStep, wp_writeLB, wp_writeUB, wp_ite, wp_lift])

end Verif.Model
