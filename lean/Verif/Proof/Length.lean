import Verif.Proof.Machine

/-!
# Pulling keeps the number of shared cells
-/

namespace Fuser

theorem passthrough_env (C : Node → Node) (p : Pull) : (passthrough C p).2.2 = p.2.2 := by
  obtain ⟨r, n, env⟩ := p
  cases r <;> rfl

theorem next_length (env : Env) (n : Node) (p : Pull) (h : next env n = some p) :
    p.2.2.length = env.length := by
  refine next.partial_correctness (fun env _ p => p.2.2.length = env.length)
    (fun env _ p => p.2.length = env.length) (fun env _ p => p.2.2.length = env.length)
    (fun env _ p => p.2.2.length = env.length) ?_ ?_ ?_ ?_ env n p h
  · intro next collect skip drain h1 h2 h3 h4 env n p h
    cases n
    case curContent tag level =>
      simp only [bind] at h
      split at h
      case h_2 => cases h
      case h_1 s buffered env =>
        rw [Option.bind_eq_some_iff] at h
        obtain ⟨⟨r, s', b', env'⟩, hx, h⟩ := h
        have hlen : env'.length = env.length := by
          simp only [Option.bind] at hx
          repeat' split at hx
          all_goals grind
        clear hx
        simp only [Option.bind] at h
        repeat' split at h
        all_goals grind
    all_goals simp only [bind, Option.bind] at h
    all_goals repeat' split at h
    all_goals first
      | contradiction
      | grind [passthrough_env]
  · intro collect skip h1 h2 env n p h
    simp only [bind, Option.bind] at h
    repeat' split at h
    all_goals grind
  · intro next skip h1 h2 env n p h
    simp only [bind, Option.bind] at h
    repeat' split at h
    all_goals grind
  · intro next drain h1 h2 env n p h
    simp only [bind, Option.bind] at h
    repeat' split at h
    all_goals grind

theorem next_cons {c env n r n' env'} (h : next (c :: env) n = some (r, n', env')) :
    ∃ c' rest, env' = c' :: rest := by
  have := next_length _ _ _ h
  cases env' with
  | nil => simp at this
  | cons c' rest => exact ⟨c', rest, rfl⟩

end Fuser
