/-!
# Specification for C07: white space

The code points with the Unicode property `White_Space` (`PropList.txt`).
-/

namespace MUL.Spec

/-- Tab, line feed, vertical tab, form feed, carriage return, blank, next line, no-break space, ogham space mark, the spaces from en quad to
hair space, line separator, paragraph separator, narrow no-break space, medium mathematical space and ideographic space. -/
def WhiteSpace (c : Char) : Prop :=
  c ∈ ['\t', '\n', '\x0b', '\x0c', '\r', ' ', '\u0085', '\u00a0', '\u1680', '\u2000', '\u2001', '\u2002', '\u2003', '\u2004', '\u2005', '\u2006',
    '\u2007', '\u2008', '\u2009', '\u200a', '\u2028', '\u2029', '\u202f', '\u205f', '\u3000']

end MUL.Spec
