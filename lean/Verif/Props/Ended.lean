import Verif.Proof.Ended
import Verif.Props.UserState

/-!
# Properties: streams that have ended
-/

namespace Fuser

open Spec

variable {σ : Type}

/-- C110. Every pull of a stream returns, however often it is pulled. First come the events, then
the end or an error, and after that, for ever, the end. The events without the placeholders are the
result of the calls; if it ends with an error, that is the result. -/
theorem C110_pulled {a k : Kind} (p : Prog a k) (es : List Event) :
    ∃ (es' : List Event) (last : Option StreamError),
      (∀ m, pulls (es'.length + 1 + m) [] (p.build (.tmpl es 0)) =
        some (es'.map .ev ++ endOf last :: List.replicate m .done)) ∧
      run p es = some (match last with
        | none => .ok (es'.filter (· ≠ .noop))
        | some e => .error e) := by
  obtain ⟨k, h⟩ := halts_build p _ _ _ (halts_tmpl (Post := fun env => env = []) rfl es 0)
  exact pulls_all h (build_owned p trivial)

/-- C110, user code with a state in common, even if it does not end: after the first end or error of
a stream there are only ends, and no user code runs any more. -/
theorem C110_no_more_calls {a k : Kind} (p : UProg σ a k) (es : List Event) (u : σ) (m : Nat)
    (rs : List (Res × σ)) (h : pullsUser m u [] (p.build (.tmpl es 0)) = some rs) :
    StaysEnded rs :=
  pullsUser_ended m (buildUser_owned p (n := .tmpl es 0) trivial) h

/-! ## Examples -/

local macro "pull" : tactic => `(tactic|
  repeat (first
    | rfl
    | dsimp only [pulls, pullsUser, bind, Option.bind_some, UProg.build, UContent.intoStream,
        Prog.build, Content.intoStream, List.getElem?_nil, List.getElem?_cons_zero]
    | rw [next.eq_def] | rw [nextSkipNoop.eq_def]
    | rw [nextUser.eq_def] | rw [nextSkipNoopUser.eq_def]))

/-- A user-defined stream that goes on after its end. -/
def goesOnAfterEnd : List (Except StreamError (Option Event)) :=
  [.ok none, .ok (some (.data (.static ['d'])))]

/-- Such a stream is pulled again only by its users, not by the streams around it: behind the calls
of the crate it stays ended. -/
example : pulls 2 [] (Content.script goesOnAfterEnd).intoStream =
      some [.done, .ev (.data (.static ['d']))] ∧
    pulls 4 [] ((Prog.append (.src : Prog .gen .gen) (.script goesOnAfterEnd)).build (.tmpl [] 0)) =
      some [.ev .noop, .done, .done, .done] := by
  unfold goesOnAfterEnd
  constructor
  · pull
  · pull

/-- The same after an error. -/
example : pulls 3 [] ((Prog.prepend (.src : Prog .gen .gen)
      (.script [.error (.staticSelector .unrestricted), .ok (some .noop)])).build
        (.tmpl [.data (.static ['d'])] 0)) =
    some [.err (.staticSelector .unrestricted), .done, .done] := by
  pull

/-- A stream that counts its calls: it is asked once. -/
example : pullsUser 4 0 [] ((UProg.append (.src : UProg Nat .gen .gen)
      (.stream (fun _ _ => .ok none) (· + 1))).build (.tmpl [] 0)) =
    some [(.ev .noop, 0), (.done, 1), (.done, 1), (.done, 1)] := by
  pull

/-- A stream without an end: there is always a next event. -/
example : pullsUser 3 () [] ((UProg.prepend (.src : UProg Unit .gen .gen)
      (.stream (fun _ _ => .ok (some (.data (.static ['d'])))) id)).build (.tmpl [] 0)) =
    some [(.ev (.data (.static ['d'])), ()), (.ev (.data (.static ['d'])), ()),
      (.ev (.data (.static ['d'])), ())] := by
  pull

end Fuser
