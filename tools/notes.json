{
 "C04": {"note": "The code violates the property for exactly two strings (src/kind.rs:32): C04_builtin_violated. C04_builtin_partial covers all others."}
}
