import Verif.Model.Stdio

namespace Ocr.Acc
open Text

/-- text.h:49. -/
def INVALID_CHARVALUE : Nat := 2^32 - 1

/-- accrpt.c:140-211 `read_char`.  `m` is the memory from `line` on (up to the end of the buffer); reading outside it is
undefined.  `next_byte` is an index into `m`. -/
def read_char (m : List Nat) : Res Nat := do
  let c0 ← rd m 0
  if c0 ≠ 123 then .ok INVALID_CHARVALUE                                  -- '{'
  else
    let c1 ← rd m 1
    -- where scanning ended and the value, or invalid
    let step ← (if c1 = 60 then do                                        -- '<'
        let c2 ← rd m 2
        if c2 = 125 then .ok (some (60, 2))                               -- '}'
        else
          let nl ← (if c2 = 92 then do let c3 ← rd m 3; pure (decide (c3 = 110)) else pure false)
          let esc ← (if nl then pure (some (NEWLINE, 4))
            else
              if 0 ∈ m.drop 2 then
                match scanHex (cstr (m.drop 2)) with
                | none => pure none
                | some (v, off) => pure (some (v, 2 + off))
              else .ub)
          match esc with
          | none => .ok none
          | some (v, p) =>
            let c ← rd m p
            if c ≠ 62 then .ok none                                       -- '>'
            else .ok (some (v, p + 1))
      else
        match iterate ((m.drop 1).take 4) with
        | none => .ok none
        | some (n, v) => do
          let p := 1 + n
          if v = DOTTED_CIRCLE then
            let c ← rd m p
            if c ≠ 125 then
              match iterate ((m.drop p).take 4) with
              | none => .ok none
              | some (n2, v2) => if n2 < 2 then .ok none else .ok (some (v2, p + n2))
            else .ok (some (v, p))
          else .ok (some (v, p)))
    match step with
    | none => .ok INVALID_CHARVALUE
    | some (v, p) =>
      let c ← rd m p
      if c = 125 then .ok v else .ok INVALID_CHARVALUE

end Ocr.Acc
