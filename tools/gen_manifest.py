#!/usr/bin/env python3
"""Writes /verif/MANIFEST.json from the claims below."""
import json, os, re
ROOT = os.path.dirname(os.path.dirname(os.path.abspath(__file__)))
C = {}
def c(pid, status, theorems, note=""):
    C[pid] = dict(property=pid, status=status, theorems=theorems, note=note)

def ns(prefix, *names):
    return [prefix + "." + n for n in names]

L = "Helper.LRU"
c("C01", "proved", ns(L, "C01_size", "C01_queries"), "One thread (C121 for several); insertions that throw are C07.")
c("C02", "proved", ns(L, "C02_notFull", "C02_evictsLeastRecentlyUsed", "C02_queriesAreNotUses"), "One thread (C121 for several); insertions that throw are C07.")
c("C03", "proved", ns(L, "C03_lists_exists", "C03_age", "C03_ages_permutation", "C03_justUsed", "C03_age_lt"), "One thread (C121 for several); insertions that throw are C07.")
c("C04", "proved", ns(L, "C04_present", "C04_get", "C04_hasLabel_call"), "One thread (C121 for several); insertions that throw are C07.")
c("C05", "proved", ns(L, "C05_construct", "C05_failingCall", "C05_outcomes"), "One thread (C121 for several); insertions that throw are C07.")
c("C06", "partial", ns(L, "C06_stable", "C06_dangles", "C06_putRef_partial", "C06_putRef_refuted", "C06_putLabel_partial", "C06_putLabel_refuted"),
  "The reference part is proved in full. The statement about put is false for a full cache whose least recently used label owns the reference: put evicts before it copies (lru_cache.hpp:90-92). The refutation and the exact extent (if and only if) are proved.")
c("C07", "partial", ns(L, "C07_ub_refuted", "C07_order_refuted", "C07_contents_partial", "C07_throwingPut_partial", "C07_capacityOne_partial", "C07_undefined_iff_partial", "C07_every_capacity_refuted", "C07_repair_partial"),
  "False as stated: after an insertion that throws, ages are no longer 0..size-1; a later put evicts the wrong label or erases end(). What survives (size bound, values, effect of the throwing put, capacity 1) is proved, and also exactly when a put is undefined, that for every capacity above 1 one throwing insertion makes the n-th following put undefined, and that getting every present label once repairs the cache.")
exec(open(os.path.join(ROOT, "tools", "claims.py")).read()) if os.path.exists(os.path.join(ROOT, "tools", "claims.py")) else None
props = [json.loads(l)["id"] for l in open(os.path.join(ROOT, "properties.jsonl"))]
out = [C[p] for p in props if p in C]
missing = [p for p in props if p not in C]
json.dump({"claims": out}, open(os.path.join(ROOT, "MANIFEST.json"), "w"), indent=1)
print(len(out), "claims; missing:", missing)
# every theorem must exist in the sources
src = ""
for d, _, fs in os.walk(os.path.join(ROOT, "lean", "Verif")):
    for f in fs:
        if f.endswith(".lean"): src += open(os.path.join(d, f)).read()
for cl in out:
    for t in cl["theorems"]:
        n = t.split(".")[-1]
        if not re.search(r"theorem\s+(\w+\.)*" + re.escape(n) + r"\b", src):
            print("NOT FOUND", cl["property"], t)
