import Verif.Spec.Text

/-!
The An+B grammar as nth_child.cpp:256-352 documents it (spaces anywhere between tokens,
case insensitive):

    nth: 'even' | 'odd' | [sign] B | [sign] A 'n' sign B
-/

namespace Csspp.Spec

/-- An optional sign and its value. -/
inductive OptSign : Str → Int → Prop
  | none : OptSign [] 1
  | plus : OptSign b!"+" 1
  | minus : OptSign b!"-" (-1)

/-- A mandatory sign and its value. -/
inductive MustSign : Str → Int → Prop
  | plus : MustSign b!"+" 1
  | minus : MustSign b!"-" (-1)

/-- `AnB s a b`: the text `s` stands for `a·n + b`. -/
inductive AnB : Str → Int → Int → Prop
  | even {s1 w s2} : Spaces s1 → lower w = b!"even" → Spaces s2 → AnB (s1 ++ w ++ s2) 2 0
  | odd {s1 w s2} : Spaces s1 → lower w = b!"odd" → Spaces s2 → AnB (s1 ++ w ++ s2) 2 1
  | b {s1 g σ s2 d s3} : Spaces s1 → OptSign g σ → Spaces s2 → Digits d → Spaces s3 →
      AnB (s1 ++ g ++ s2 ++ d ++ s3) 0 (σ * decVal d)
  | anb {s1 g σ s2 d s3 n s4 h τ s5 e s6} :
      Spaces s1 → OptSign g σ → Spaces s2 → Digits d → Spaces s3 → lower n = b!"n" →
      Spaces s4 → MustSign h τ → Spaces s5 → Digits e → Spaces s6 →
      AnB (s1 ++ g ++ s2 ++ d ++ s3 ++ n ++ s4 ++ h ++ s5 ++ e ++ s6)
        (σ * decVal d) (τ * decVal e)

end Csspp.Spec
