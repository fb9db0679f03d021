/- Model of the character classes of `base/data/m_chr.c`.  A `char` is its unsigned byte value; for the classes below the
sign of bytes above 127 does not matter because every comparison is a closed range of ASCII values. -/
namespace Verif.Chr

/-- `base/data/m_chr.c:56-59`, `M_chr_isspace`, with `M_chr_isblank` (51-54). -/
def isSpace (c : UInt8) : Bool := c == 32 || c == 9 || c == 12 || c == 10 || c == 13 || c == 11

/-- `base/data/m_chr.c:68-71`, `M_chr_islower`. -/
def isLower (c : UInt8) : Bool := 97 ≤ c && c ≤ 122

/-- `base/data/m_chr.c:73-76`, `M_chr_isupper`. -/
def isUpper (c : UInt8) : Bool := 65 ≤ c && c ≤ 90

/-- `base/data/m_chr.c:88-91`, `M_chr_isdigit`. -/
def isDigit (c : UInt8) : Bool := 48 ≤ c && c ≤ 57

/-- `base/data/m_chr.c:78-81`, `M_chr_isalpha`. -/
def isAlpha (c : UInt8) : Bool := isLower c || isUpper c

/-- `base/data/m_chr.c:98-101`, `M_chr_isalnum`. -/
def isAlnum (c : UInt8) : Bool := isAlpha c || isDigit c

/-- `base/data/m_chr.c:113-116`, `M_chr_ishex`. -/
def isHex (c : UInt8) : Bool := isDigit c || (97 ≤ c && c ≤ 102) || (65 ≤ c && c ≤ 70)

/-- `base/data/m_chr.c:125-128`, `M_chr_tolower`; also the table `M_ct_tolower` of `base/data/m_str.c:60-84`. -/
def toLower (c : UInt8) : UInt8 := if isUpper c then c + 32 else c

/-- `base/data/m_chr.c:120-123`, `M_chr_toupper`. -/
def toUpper (c : UInt8) : UInt8 := if isLower c then c - 32 else c

end Verif.Chr
