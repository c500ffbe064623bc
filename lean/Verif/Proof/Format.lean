import Verif.Spec.Format
import Verif.Spec.Keep
import Verif.Proof.Show
import Verif.Proof.Hidden
import Verif.Proof.KeepRaw

/-!
# Lemmas on format parameters
-/

namespace Fuser

open Spec

theorem pad_plain (f : FormatSpec) (hw : f.width = none) (hp : f.precision = none) (s : Str) :
    f.pad s = s := by
  unfold FormatSpec.pad
  rw [hw, hp]

theorem format_default (d : Deferred) : d.format {} = d.str := by
  cases d <;> exact pad_plain {} rfl rfl _

theorem format_pad (f : FormatSpec) (d : Deferred) : d.format f = f.pad d.str := by
  cases d <;> rfl

/-- The text cut to the precision. -/
def cutTo (f : FormatSpec) (s : Str) : Str :=
  match f.precision with
  | some max => s.take max
  | none => s

theorem padded_pad (f : FormatSpec) (s : Str) : Padded f s (f.pad s) := by
  have hc : s = cutTo f s ++ s.drop (cutTo f s).length ∧
      (∀ p, f.precision = some p → (cutTo f s).length ≤ p) ∧
      (s.drop (cutTo f s).length ≠ [] → f.precision = some (cutTo f s).length) := by
    unfold cutTo
    cases hp : f.precision with
    | none => simp
    | some p =>
      simp only [List.length_take, Option.some.injEq]
      refine ⟨?_, fun q hq => by omega, fun h => ?_⟩
      · rcases Nat.le_total p s.length with h | h
        · rw [Nat.min_eq_left h]; exact (List.take_append_drop p s).symm
        · rw [Nat.min_eq_right h, List.take_of_length_le h, List.drop_length, List.append_nil]
      · rcases Nat.le_total p s.length with h' | h'
        · rw [Nat.min_eq_left h']
        · rw [Nat.min_eq_right h', List.drop_length] at h
          exact absurd rfl h
  have hpad : f.pad s = match f.width with
      | none => cutTo f s
      | some width => if width ≤ (cutTo f s).length then cutTo f s
        else f.padding (width - (cutTo f s).length) (cutTo f s) := rfl
  obtain ⟨h1, h2, h3⟩ := hc
  have zero : f.width.getD 0 - (cutTo f s).length = 0 → Padded f s (cutTo f s) := by
    intro hz
    refine ⟨_, _, 0, 0, h1, h2, h3, by simp, by omega, ?_⟩
    unfold Fills
    split <;> simp
  rw [hpad]
  cases hw : f.width with
  | none => exact zero (by simp [hw])
  | some w =>
    dsimp only
    split
    · next h => exact zero (by rw [hw]; simp only [Option.getD_some]; omega)
    · next h =>
      unfold FormatSpec.padding
      have hg : f.width.getD 0 = w := by rw [hw]; rfl
      split
      · next ha =>
        exact ⟨_, _, w - (cutTo f s).length, 0, h1, h2, h3, by simp, by omega, by simp [Fills, ha]⟩
      · next ha =>
        refine ⟨_, _, _, _, h1, h2, h3, rfl, by omega, ?_⟩
        simp only [Fills, ha]
        omega
      · next ha =>
        exact ⟨_, _, 0, w - (cutTo f s).length, h1, h2, h3, by simp, by omega, by simp [Fills, ha]⟩
      · next ha =>
        exact ⟨_, _, 0, w - (cutTo f s).length, h1, h2, h3, by simp, by omega, by simp [Fills, ha]⟩

theorem padded_unique {f : FormatSpec} {s r r' : Str} (h : Padded f s r) (h' : Padded f s r') :
    r = r' := by
  obtain ⟨c, e, b, a, rfl, h1, h2, rfl, h3, h4⟩ := h
  obtain ⟨c', e', b', a', hs, h1', h2', rfl, h3', h4'⟩ := h'
  have hlen : c.length = c'.length := by
    have hl : c.length + e.length = c'.length + e'.length := by
      have := congrArg List.length hs
      simpa using this
    by_cases he : e = []
    · by_cases he' : e' = []
      · simpa [he, he'] using hl
      · have := h1 _ (h2' he')
        have : 0 < e'.length := List.length_pos_iff.2 he'
        simp only [he, List.length_nil] at hl
        omega
    · by_cases he' : e' = []
      · have := h1' _ (h2 he)
        have : 0 < e.length := List.length_pos_iff.2 he
        simp only [he', List.length_nil] at hl
        omega
      · have := h2 he
        rw [h2' he'] at this
        exact (Option.some.inj this).symm
  obtain ⟨rfl, -⟩ := List.append_inj hs hlen
  have : b = b' ∧ a = a' := by
    unfold Fills at h4 h4'
    split at h4 <;> rename_i ha <;> simp only [ha] at h4' <;> omega
  rw [this.1, this.2]

/-! ## Events -/

theorem default_render (d : Deferred) : d.format {} = d.render := by
  rw [format_default]
  cases d <;> rfl

theorem name_format (t : Identifier) : t.format {} = t.render := default_render t.text

theorem attribute_format (a : Attribute) : a.format {} = a.render := by
  obtain ⟨n, v⟩ := a
  unfold Attribute.format Attribute.render
  rw [name_format]
  cases v with
  | none => rfl
  | some v => simp only [default_render]

theorem attributes_format (b : Bool) (as : Attributes) :
    Attributes.formatLoop {} b as = Attributes.renderLoop b as := by
  induction as generalizing b with
  | nil => rfl
  | cons a as ih => rw [Attributes.formatLoop, Attributes.renderLoop, attribute_format, ih]

theorem tag_format (t : Identifier) (as : Attributes) :
    tagDisplayFormat {} t as = tagDisplay t as := by
  unfold tagDisplayFormat tagDisplay Attributes.render
  rw [name_format, attributes_format]

/-- The event with its text, if it is one, cut and filled up. -/
def padEvent (f : FormatSpec) : Event → Event
  | .data c => .data (.actual (f.pad c.str))
  | .rawData c => .rawData (.actual (f.pad c.str))
  | e => e

theorem event_format (f : FormatSpec) (e : Event) : e.format f = (padEvent f e).render := by
  cases e with
  | noop => rfl
  | doctype c =>
    exact congrArg (fun x => "<!doctype ".toList ++ x ++ ">".toList) (default_render c)
  | comment c => exact congrArg (fun x => "<!--".toList ++ x ++ "-->".toList) (default_render c)
  | data c => exact format_pad f c
  | rawData c => exact format_pad f c
  | selfClosedTag t as => exact congrArg (fun x => "<".toList ++ x ++ " />".toList) (tag_format t as)
  | openingTag t as => exact congrArg (fun x => "<".toList ++ x ++ ">".toList) (tag_format t as)
  | voidTag t as => exact congrArg (fun x => "<".toList ++ x ++ ">".toList) (tag_format t as)
  | closingTag t => exact congrArg (fun x => "</".toList ++ x ++ ">".toList) (name_format t)

theorem template_format (f : FormatSpec) (t : Template) :
    t.format f = Template.render ⟨t.events.map (padEvent f)⟩ := by
  unfold Template.format Template.render
  rw [List.flatMap_map]
  congr 1
  funext e
  exact event_format f e

theorem event_shown (f : FormatSpec) (e : Event) : ShownAs f e (e.format f) := by
  cases e with
  | data c =>
    change Padded f c.str (c.format f)
    rw [format_pad]
    exact padded_pad f c.str
  | rawData c =>
    change Padded f c.str (c.format f)
    rw [format_pad]
    exact padded_pad f c.str
  | _ => exact (event_format f _).trans (event_text _)

theorem shown_unique {f : FormatSpec} {e : Event} {r r' : Str} (h : ShownAs f e r)
    (h' : ShownAs f e r') : r = r' := by
  cases e with
  | data c => exact padded_unique h h'
  | rawData c => exact padded_unique h h'
  | _ => exact Eq.trans h (Eq.symm h')

theorem pad_mem {f : FormatSpec} {s : Str} {c : Char} (h : c ∈ f.pad s) : c = f.fill ∨ c ∈ s := by
  obtain ⟨cut, rest, b, a, hs, -, -, hr, -⟩ := padded_pad f s
  rw [hr] at h
  simp only [List.mem_append, List.mem_replicate] at h
  rcases h with (⟨-, h⟩ | h) | ⟨-, h⟩
  · exact .inl h
  · exact .inr (by rw [hs]; exact List.mem_append_left _ h)
  · exact .inl h

theorem pad_plainEvent {f : FormatSpec} (hf : f.fill ≠ '<') {e : Event} (h : Plain e) :
    Plain (padEvent f e) := by
  cases e with
  | data c =>
    intro hm
    rcases pad_mem (show '<' ∈ f.pad c.str from hm) with h' | h'
    · exact hf h'.symm
    · exact h h'
  | rawData c => exact absurd h id
  | _ => exact h

theorem pad_markup (f : FormatSpec) (es : List Event) :
    (es.map (padEvent f)).filter notText = es.filter notText := by
  induction es with
  | nil => rfl
  | cons e es ih =>
    rw [List.map_cons, List.filter_cons, List.filter_cons, ih]
    cases e <;> rfl

/-! ## Reading pages of ordinary events -/

theorem walk_strip {L : Nat} {es : List Event} :
    ∀ {st : List Str}, Walk L st (es.map stripEvent) ↔ Walk L st es := by
  induction es with
  | nil => exact Iff.rfl
  | cons e es ih =>
    intro st
    rw [List.map_cons]
    constructor
    · intro h
      cases e <;> first
        | (cases h with
          | leaf h _ => cases h
          | opening hl h => exact .opening hl (ih.1 h))
        | (cases h with
          | leaf h _ => cases h
          | closing hl h => exact .closing hl (ih.1 h))
        | (cases h with | leaf _ h => exact .leaf trivial (ih.1 h))
    · intro h
      cases h with
      | leaf hl h => cases e <;> first | exact hl.elim | exact .leaf trivial (ih.2 h)
      | opening hl h => exact .opening hl (ih.2 h)
      | closing hl h => exact .closing hl (ih.2 h)

theorem nests_strip {n : Nat} {es : List Event} : Nests n (es.map stripEvent) ↔ Nests n es := by
  rw [nests_iff_walk, nests_iff_walk, walk_strip]

/-- How the text of ordinary events is read. -/
theorem plain_reading {es : List Event} (h : ∀ e ∈ es, Plain e) (o : Options) (u : Template) :
    Template.fromStr (Template.render ⟨es⟩) o = .ok (.ok u) ↔
      u = ⟨joined es⟩ ∧ Fits o.maxInputLen (Template.render ⟨es⟩) ∧ Balanced u.events ∧
        ∀ n, o.maxStackDepth = some n → Nests n u.events := by
  obtain ⟨d, h1, h2, h3, -⟩ := normal_reads (plain_normal h)
  rw [fromStr_ok, parseEvents_ok]
  constructor
  · rintro ⟨hf, d', ht', he, hr, ho⟩
    obtain rfl := reads_unique h3 rfl hr (ht'.symm.trans h1.symm)
    rw [← h2, ← he]
    exact ⟨rfl, hf, he ▸ opens_iff.1 ho⟩
  · rintro ⟨rfl, hf, hb, hn⟩
    exact ⟨hf, d, h1.symm, h2.symm, h3, opens_iff.2 ⟨h2 ▸ hb, fun n hn' => h2 ▸ hn n hn'⟩⟩

theorem joined_nests {es : List Event} (h : ∀ e ∈ es, Plain e) {n : Nat} :
    Nests n (joined es) ↔ Nests n es := by
  rw [← nests_markup, normal_markup (plain_normal h), nests_strip, nests_markup]

end Fuser
