import Verif.SelParse.Spec
/-!
# The cut down grammar is part of the grammar
-/
namespace Verif.SelParse.Spec
open Verif.Css (Sst Text)
open Verif.Selector (Selector)

theorem Keyword.loose {b : Bool} {x : Text} {w : String} (h : Keyword b x w) : Keyword false x w := ⟨h.1, fun h => by cases h⟩

theorem Name.loose {b : Bool} {x n} (h : Name b x n) : Name false x n := by
  cases h with
  | plain h => exact .plain h
  | escaped _ h1 h2 h3 h4 h5 h6 h7 h8 => exact .escaped rfl h1 h2 h3 h4 h5 h6 h7 h8

theorem IsN.loose {b : Bool} {c} (h : IsN b c) : IsN false c := by
  rcases h with h | ⟨_, h⟩
  · exact .inl h
  · exact .inr ⟨rfl, h⟩

theorem Head.loose {b : Bool} {x t a} (h : Head b x t a) : Head false x t a := by
  cases h with
  | one h => exact .one h.loose
  | plus h => exact .plus h.loose
  | minus h => exact .minus h.loose
  | dim h h1 h2 => exact .dim h.loose h1 h2

theorem Anb.loose {s b : Bool} {t a} (h : Anb s b t a) : Anb false b t a := by
  cases h with
  | odd h => exact .odd h.loose
  | even h => exact .even h.loose
  | int h h' => exact .int h h'
  | bare h => exact .bare h.loose
  | signed h h1 h2 h3 h4 => exact .signed h.loose h1 h2 h3 h4
  | plus h h1 h2 h3 => exact .plus h.loose h1 h2 h3
  | minus h h1 h2 h3 => exact .minus h.loose h1 h2 h3
  | dash h h1 h2 => exact .dash h.loose h1 h2
  | digits h h1 => exact .digits h.loose h1

theorem TypeText.loose {s : Bool} {ns t q} (h : TypeText s ns t q) : TypeText false ns t q := by
  cases h with
  | name h => exact .name h.loose
  | all => exact .all
  | inName h h1 h2 => exact .inName h.loose h1 h2.loose
  | inAll h h1 => exact .inAll h.loose h1
  | anyName h => exact .anyName h.loose
  | anyAll => exact .anyAll
  | noName _ h => exact .noName rfl h.loose
  | noAll _ => exact .noAll rfl

theorem AttrName.loose {s : Bool} {ns t q} (h : AttrName s ns t q) : AttrName false ns t q := by
  cases h with
  | name h => exact .name h.loose
  | inName h h1 h2 => exact .inName h.loose h1 h2.loose
  | anyName h => exact .anyName h.loose
  | noName h => exact .noName h.loose

theorem AttrVal.loose {s : Bool} {v x} (h : AttrVal s v x) : AttrVal false v x := by
  cases h with
  | string => exact .string
  | name h => exact .name h.loose

theorem AttrFlag.loose {s : Bool} {t i} (h : AttrFlag s t i) : AttrFlag false t i := by
  cases h with
  | none => exact .none
  | sensitive h => exact .sensitive h.loose
  | insensitive h => exact .insensitive h.loose

theorem AttrText.loose {s : Bool} {ns t a} (h : AttrText s ns t a) : AttrText false ns t a := by
  cases h with
  | present h h1 h2 => exact .present h h1.loose h2
  | test h h1 h2 h3 h4 h5 h6 h7 h8 _ => exact .test h h1.loose h2 h3 h4 h5.loose h6 h7.loose h8 (fun h => by cases h)

theorem CombText.loose {s : Bool} {t c o} (h : CombText s t c o) : CombText false t c o := by
  cases h with
  | descendant _ => exact .descendant (fun h => by cases h)
  | child h h' _ => exact .child h h' (fun h => by cases h)
  | adjacent h h' _ => exact .adjacent h h' (fun h => by cases h)
  | subsequent h h' _ => exact .subsequent h h' (fun h => by cases h)

mutual
theorem Simple.loose {b : Bool} {ns : Namespaces} : ∀ {t s}, Simple b ns t s → Simple false ns t s
  | _, _, .id h => .id h.loose
  | _, _, .class_ h => .class_ h.loose
  | _, _, .attr h => .attr h.loose
  | _, _, .pseudo h h' => .pseudo h h'.loose
  | _, _, .element h h' => .element h h'.loose
  | _, _, .legacy h h' => .legacy h h'.loose
  | _, _, .not h h' => .not h h'.loose
  | _, _, .nthChild h h1 h2 h3 => .nthChild h.loose h1 h2.loose h3
  | _, _, .nthLastChild h h1 h2 h3 => .nthLastChild h.loose h1 h2.loose h3
  | _, _, .nthOfType h h1 h2 h3 => .nthOfType h.loose h1 h2.loose h3
  | _, _, .nthLastOfType h h1 h2 h3 => .nthLastOfType h.loose h1 h2.loose h3
  | _, _, .nthChildOf h h1 h2 _ h3 h4 h5 => .nthChildOf h.loose h1 h2.loose (fun h => nomatch h) h3 h4 h5.loose
  | _, _, .nthLastChildOf h h1 h2 _ h3 h4 h5 => .nthLastChildOf h.loose h1 h2.loose (fun h => nomatch h) h3 h4 h5.loose
theorem Simples.loose {b : Bool} {ns : Namespaces} : ∀ {t s}, Simples b ns t s → Simples false ns t s
  | _, _, .nil => .nil
  | _, _, .cons h h' => .cons h.loose h'.loose
theorem Compound.loose {b : Bool} {ns : Namespaces} : ∀ {t s}, Compound b ns t s → Compound false ns t s
  | _, _, .bare h h' => .bare h.loose h'.loose
  | _, _, .typed h h' => .typed h.loose h'.loose
theorem More.loose {b : Bool} {ns : Namespaces} : ∀ {t s}, More b ns t s → More false ns t s
  | _, _, .nil => .nil
  | _, _, .cons h h1 h2 => .cons h.loose h1.loose h2.loose
theorem Complex.loose {b : Bool} {ns : Namespaces} : ∀ {t s}, Complex b ns t s → Complex false ns t s
  | _, _, .mk h h1 _ => .mk h.loose h1.loose (fun h => nomatch h)
theorem Complexes.loose {b : Bool} {ns : Namespaces} : ∀ {t s}, Complexes b ns t s → Complexes false ns t s
  | _, _, .one h => .one h.loose
  | _, _, .more h h1 h2 _ h3 => .more h.loose h1 h2 (fun h => nomatch h) h3.loose
theorem ListText.loose {b : Bool} {ns : Namespaces} : ∀ {t s}, ListText b ns t s → ListText false ns t s
  | _, _, .mk h h1 h2 => .mk h h1.loose h2
end

end Verif.SelParse.Spec
