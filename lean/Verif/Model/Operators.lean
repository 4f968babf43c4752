/-!
# `mutagenyx_lib/src/operators.rs`
-/

namespace Mutagenyx

/-- Models `arithmetic_operators` (`operators.rs:5-7`). -/
def arithmeticOperators : List String := ["+", "-", "*", "/", "%", "**"]
/-- Models `logical_operators` (`operators.rs:10-12`). -/
def logicalOperators : List String := ["&&", "||"]
/-- Models `bitwise_operators` (`operators.rs:15-17`). -/
def bitwiseOperators : List String := ["&", "|", "^"]
/-- Models `bitshift_operators` (`operators.rs:19-21`). -/
def bitshiftOperators : List String := ["<<", ">>"]
/-- Models `comparison_operators` (`operators.rs:24-26`). -/
def comparisonOperators : List String := ["==", "!=", ">", "<", ">=", "<="]
/-- Models `non_commutative_operators` (`operators.rs:29-31`). -/
def nonCommutativeOperators : List String := ["-", "/", "%", "**", ">", "<", "<=", ">=", "<<", ">>"]
/-- Models `prefix_operators` (`operators.rs:34-36`). -/
def prefixOperators : List String := ["++", "--", "~"]
/-- Models `postfix_operators` (`operators.rs:39-41`). -/
def postfixOperators : List String := ["++", "--"]

end Mutagenyx
