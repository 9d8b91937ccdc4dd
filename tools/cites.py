import re,sys
src=open('/repo/voproof/src/tools/mod.rs').read().split('\n')
rng={}
for i,l in enumerate(src):
    m=re.match(r'macro_rules! (\w+)',l) or re.match(r'pub fn (\w+)',l)
    if m:
        j=i
        while not re.match(r'^[)}]',src[j]): j+=1
        rng[m.group(1)]=(i+1,j+1)
f=sys.argv[1]; t=open(f).read()
def sub(m):
    n=m.group(2)
    if n in rng:
        return m.group(1)+n+m.group(3)+f"tools/mod.rs:{rng[n][0]}-{rng[n][1]}"
    print("no",n); return m.group(0)
t=re.sub(r'(/-- `)(\w+)(!?`[^\n:]*?,\s)tools/mod\.rs:\d+-\d+',sub,t)
open(f,'w').write(t)
