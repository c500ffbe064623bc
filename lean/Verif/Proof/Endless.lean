import Verif.Spec.Settle
import Mathlib.Logic.Basic

/-!
# Streams with user code that has no end
-/

namespace Fuser

open Spec

variable {σ : Type}

/-- Streams that never report their end. -/
inductive Endless : UNode σ → Prop
  | repCollect {s k k' m b g} : (∀ i u, m i u = true) → Endless (.repCollect s k k' m b g)
  | repNext {es i k k' m b g} : (∀ i u, m i u = true) → Endless (.repNext es i k k' m b g)
  | repEmit {es i k k' m b g s} : (∀ i u, m i u = true) → Endless (.repEmit es i k k' m b g s)
  | stream {i pull after} : (∀ i u, pull i u ≠ .ok none) → Endless (.stream i pull after)
  | first {s t} : Endless s → Endless (.combFirst s t)
  | second {s t} : Endless t → Endless (.combFirst s t)
  | rest {t} : Endless t → Endless (.combSecond t)

/-- A pull of an endless stream gives an event and an endless stream, or an error. -/
def NoEnd (n : UNode σ) (p : UPull σ) : Prop :=
  Endless n → (∃ e, p.1 = .ev e ∧ Endless p.2.1) ∨ ∃ x, p.1 = .err x

theorem machine_endless :
    (∀ (u : σ) env n p, nextUser u env n = some p → NoEnd n p) ∧
    (∀ (u : σ) env n p, collectUser u env n = some p → Endless n → ∃ x, p.1 = .error x) ∧
    (∀ (u : σ) env n p, nextSkipNoopUser u env n = some p → NoEnd n p) ∧
    (∀ (u : σ) env n p, drainUser u env n = some p → True) := by
  refine nextUser.mutual_partial_correctness (fun _ _ n p => NoEnd n p)
    (fun _ _ n p => Endless n → ∃ x, p.1 = .error x) (fun _ _ n p => NoEnd n p)
    (fun _ _ _ _ => True) ?_ ?_ ?_ ?_
  · intro next collect skip drain h1 h2 h3 h4 u env n p h he
    cases he with
    | repCollect hm =>
      simp only [bind, Option.bind_eq_some_iff] at h
      obtain ⟨⟨r, env', u'⟩, -, h⟩ := h
      cases r with
      | error e => cases h; exact .inr ⟨_, rfl⟩
      | ok es => cases h; exact .inl ⟨_, rfl, .repNext hm⟩
    | repNext hm =>
      simp only [hm, if_true] at h
      cases h
      exact .inl ⟨_, rfl, .repEmit hm⟩
    | repEmit hm =>
      simp only [bind, Option.bind_eq_some_iff] at h
      obtain ⟨⟨r, s', env', u'⟩, -, h⟩ := h
      cases r with
      | err e => cases h; exact .inr ⟨_, rfl⟩
      | ev e => cases h; exact .inl ⟨_, rfl, .repEmit hm⟩
      | done => cases h; exact .inl ⟨_, rfl, .repNext hm⟩
    | @stream i pull after hp =>
      simp only at h
      cases hr : pull i u with
      | error e => rw [hr] at h; cases h; exact .inr ⟨_, rfl⟩
      | ok o =>
        cases o with
        | none => exact absurd hr (hp i u)
        | some e => rw [hr] at h; cases h; exact .inl ⟨_, rfl, .stream hp⟩
    | first hs =>
      simp only [bind, Option.bind_eq_some_iff] at h
      obtain ⟨⟨r, s', env', u'⟩, hx, h⟩ := h
      rcases h3 _ _ _ _ hx hs with ⟨e, rfl, he⟩ | ⟨x, rfl⟩
      · cases h
        exact .inl ⟨_, rfl, .first he⟩
      · cases h
        exact .inr ⟨_, rfl⟩
    | second hs =>
      simp only [bind, Option.bind_eq_some_iff] at h
      obtain ⟨⟨r, s', env', u'⟩, hx, h⟩ := h
      cases r with
      | err e => cases h; exact .inr ⟨_, rfl⟩
      | ev e => cases h; exact .inl ⟨_, rfl, .second hs⟩
      | done => cases h; exact .inl ⟨_, rfl, .rest hs⟩
    | rest hs =>
      simp only [bind, Option.bind_eq_some_iff] at h
      obtain ⟨⟨r, s', env', u'⟩, hx, h⟩ := h
      rcases h3 _ _ _ _ hx hs with ⟨e, rfl, he⟩ | ⟨x, rfl⟩
      · cases h
        exact .inl ⟨_, rfl, .rest he⟩
      · cases h
        exact .inr ⟨_, rfl⟩
  · intro collect skip h2 h3 u env n p h he
    simp only [bind, Option.bind_eq_some_iff] at h
    obtain ⟨⟨r, s', env', u'⟩, hx, h⟩ := h
    rcases h3 _ _ _ _ hx he with ⟨e, rfl, he⟩ | ⟨x, rfl⟩
    · simp only [Option.bind_eq_some_iff] at h
      obtain ⟨⟨r, env', u'⟩, hy, h⟩ := h
      obtain ⟨x, rfl⟩ := h2 _ _ _ _ hy he
      cases h
      exact ⟨_, rfl⟩
    · cases h
      exact ⟨_, rfl⟩
  · intro next skip h1 h3 u env n p h he
    simp only [bind, Option.bind_eq_some_iff] at h
    obtain ⟨⟨r, s', env', u'⟩, hx, h⟩ := h
    rcases h1 _ _ _ _ hx he with ⟨e, rfl, he⟩ | ⟨x, rfl⟩
    · cases e with
      | noop => exact h3 _ _ _ _ h he
      | _ => cases h; exact .inl ⟨_, rfl, he⟩
    · cases h
      exact .inr ⟨_, rfl⟩
  · exact fun _ _ _ _ _ _ _ _ _ => trivial

theorem transformUser_endless {k : Kind} {t t' : Template} {p : UProg σ .gen k} {u u' : σ}
    (hp : Endless (p.build (.tmpl t.events 0))) : t.transformUser p u ≠ some (.ok t', u') := by
  intro h
  simp only [Template.transformUser, bind, Option.bind_eq_some_iff] at h
  obtain ⟨⟨es, env, u₁⟩, hc, h⟩ := h
  obtain ⟨x, rfl⟩ := machine_endless.2.1 _ _ _ _ hc hp
  cases h

end Fuser
