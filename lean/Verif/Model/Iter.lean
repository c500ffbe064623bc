import Verif.Model.Parse

/-!
# The parser as an iterator

`Iter.next` of `Model/Parse.lean` gives no state after an error, because `Template::from_str` stops
there. This file models the iterator with the state it has after every call.
-/

namespace Fuser

/-- `Iter::finalize`. `parse.rs` 402-404. -/
def Iter.finalize (it : Iter) : M Iter := do return { it with rest := ← it.rest.toEnd }

/-- `Iter::next` together with the state it leaves. `parse.rs` 309-374. The Rust code pushes to and
pops from the stack before it stores the new rest and mode, so after an error the stack may already
be changed. -/
def Iter.step (it : Iter) : M (Option (Except ParseError Event) × Iter) :=
  if it.rest.isEmpty then
    match it.stack with
    | (tag, location) :: stack =>
      .ok (some (.error (.missingClosingTags (tag.str, location)
        (stack.reverse.map fun (t, l) => (t.str, l)))), { it with stack := stack })
    | [] => .ok (none, it)
  else do
    match ← parse it.mode it.rest with
    | .error error => return (some (.error error), ← it.finalize)
    | .ok parsed =>
      let location := parsed.location
      let event := parsed.event
      let done (it : Iter) : Option (Except ParseError Event) × Iter :=
        (some (.ok event), { it with rest := parsed.rest, mode := parsed.nextMode })
      match event with
      | .openingTag tag _ =>
        match it.options.maxStackDepth with
        | some limit =>
          if limit = it.stack.length then
            return (some (.error (.stackLimitExceeded tag.str location limit)), ← it.finalize)
          else return done { it with stack := (tag, location) :: it.stack }
        | none => return done { it with stack := (tag, location) :: it.stack }
      | .closingTag tag =>
        match it.stack with
        | [] => return (some (.error (.unexpectedClosingTag tag.str location)), ← it.finalize)
        | (openTag, openLocation) :: stack =>
          let it := { it with stack := stack }
          if !tag.eq openTag then
            return (some (.error
              (.mismatchedClosingTag openTag.str openLocation tag.str location)), ← it.finalize)
          else return done it
      | _ => return done it

end Fuser
