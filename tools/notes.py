PARTIAL=set()
NOTES={
'C02':'for every digest function sha: Str -> 64 bytes; second preimage on 64-byte documents is a violation family',
'C03':'includes the violation (boundaries are not bound)',
'C08':'violation families, whatever the hash function',
'C10':'violation family','C13':'violation families','C16':'violation: Verify authenticates nothing','C19':'violation families',
'C20':'violation: key extraction','C26':'violation family','C27':'violation, whatever the hash function','C74':'violation families','C75':'violation families','C77':'violation family','C84':'violation family and a line of the shipped grammar','C87':'violation families','C89':'violation family','C101':'includes a violation family (one path panics)','C102':'violation family and a witness','C94':'with a violation','C95':'violations, on the shipped texts, by kernel evaluation transferred to all orders, settings and larger numbers of steps','C96':'violation family','C52':'violation','C53':'violation',
'C104':'hypothesis: the parameter for strconv.ParseFloat never panics; includes a text on which every run is an error',
'C109':'the iff is for a fixed order of the channels; any order: C109_any_order','C112':'includes the violation family (valid although nothing is read)','C114':'violation families','C111':'includes the violation by the shared nonce', 'C108':'witnesses of the violations, end to end', 'C105':'includes the violation for small keys','C106':'includes the violations (malleable encoding, unchecked builder)',
'C116':'the arithmetic of the vendored library, byte for byte','C117':'includes the violation families above the limit','C118':'the hypotheses on challenges say that two hashes are not zero modulo the order','C119':'violation families','C120':'includes the violation families','C122':'a field element is its residue modulo the prime; the ten limbs are C126 to C128','C126':'includes the limit of the bounds (C126_limit)','C129':'violation families','C130':'violation families','C131':'violation family; the work is the number of passes over the channels','C132':'includes the violations','C133':'includes the violations','C128':'SHA-256 is any function','C124':'includes the violation families','C125':'includes the violation (C125_outside, C125_chance); SHA-256 is any function','C121':'includes the violation families',
}
